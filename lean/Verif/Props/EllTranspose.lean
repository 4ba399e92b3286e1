import Verif.Props.EllOps
import Verif.Ellpack.Adjungate

/-!
# Property theorems: ELLPACK transposition and adjungate (C17, C18, C19)
-/

namespace Bml.Props

open Bml Bml.Ell

variable {R : Type} [CommRing R]

/-! ## C17 -/

/-- **C17.**  `bml_transpose_new`: for every order `sc` in which the threads append the entries
(any permutation of the stored slots), the result represents the transposed matrix, provided that
no column of `A` has more than `M` stored entries. -/
theorem C17_transpose_new {N : Nat} {A : Ell R} {a : Spec.Mat R} (hA : A.Represents N a)
    {sc : List (Nat × Nat)} (hsc : sc.Perm A.slots) (jv : Nat → R) (ji : Nat → Nat)
    (hfit : ∀ c, c < N → ((Finset.range N).filter (fun i => A.Stored i c)).card ≤ A.M) :
    ∃ B, transposeNew A sc jv ji = .ok B ∧ B.M = A.M ∧ B.Represents N (Spec.transpose a) := by
  obtain ⟨B, e, h1, h2, _⟩ := transposeNew_spec (represents_iff.1 hA) hsc jv ji hfit
  exact ⟨B, e, h1, represents_iff.2 h2⟩

/-- **C17**, consequence: two executions with different interleavings give matrices with the same
elements. -/
theorem C17_schedule_independent {N : Nat} {A : Ell R} {a : Spec.Mat R} (hA : A.Represents N a)
    {sc sc' : List (Nat × Nat)} (hsc : sc.Perm A.slots) (hsc' : sc'.Perm A.slots)
    (jv jv' : Nat → R) (ji ji' : Nat → Nat)
    (hfit : ∀ c, c < N → ((Finset.range N).filter (fun i => A.Stored i c)).card ≤ A.M) :
    ∃ B B', transposeNew A sc jv ji = .ok B ∧ transposeNew A sc' jv' ji' = .ok B' ∧
      ∀ i j, i < N → j < N → B.getElement i j = B'.getElement i j := by
  obtain ⟨B, e, _, h⟩ := C17_transpose_new hA hsc jv ji hfit
  obtain ⟨B', e', _, h'⟩ := C17_transpose_new hA hsc' jv' ji' hfit
  exact ⟨B, B', e, e', fun i j hi hj => by rw [h.get i j hi hj, h'.get i j hi hj]⟩

example : ∃ B, transposeNew exA exA.slots.reverse (fun _ => 99) (fun _ => 99) = .ok B ∧
    B.M = 4 ∧ B.Represents 3 (Spec.transpose exa) :=
  C17_transpose_new exA_rep (List.reverse_perm _) _ _ (by decide)

/-- A `3 × 3` matrix with one slot per row, two of its entries in column 0. -/
def exCol : Ell Int := ofRows 3 1 (fun i => [(i - 1, (i : Int) + 1)])

/-- **C17**: the capacity condition is needed.  The matrix with `(0,0) = 1`, `(1,0) = 2`,
`(2,1) = 3` and `M = 1` is stored without loss, but `bml_transpose_new` silently loses an element:
`(0,1)` of the transpose should be `2`. -/
theorem C17_overflow_witness :
    exCol.WF ∧ exCol.getElement 1 0 = .ok 2 ∧
      (do let B ← transposeNew exCol exCol.slots (fun _ => 0) (fun _ => 0)
          B.getElement 0 1) = .ok 0 :=
  ⟨(ofRows_rep (by decide)).wf, by decide, by decide⟩

/-! ## C18 -/

/-- **C18 (partial).**  `bml_transpose` terminates and replaces `A` by its transpose, if for every
`j` at most `M` columns are stored in row `j` or have `j` in their row.  Missing: matrices whose
rows and columns fit but where a row and the column with the same number together do not; there
the claim is false, see `C18_transient_overflow_witness`. -/
theorem C18_transpose_partial {N : Nat} {A : Ell R} {a : Spec.Mat R} (hA : A.Represents N a)
    (hfit : ∀ j, j < N →
      ((Finset.range N).filter (fun c => A.Stored j c ∨ A.Stored c j)).card ≤ A.M) :
    ∃ B, transposeInPlace A = .ok B ∧ B.M = A.M ∧ B.Represents N (Spec.transpose a) := by
  obtain ⟨B, e, h1, h2, _⟩ := transposeInPlace_spec (represents_iff.1 hA) hfit
  exact ⟨B, e, h1, represents_iff.2 h2⟩

/-- **C18 (partial).**  Under the same condition `bml_transpose` applied twice restores every
element. -/
theorem C18_transpose_twice_partial {N : Nat} {A : Ell R} {a : Spec.Mat R}
    (hA : A.Represents N a)
    (hfit : ∀ j, j < N →
      ((Finset.range N).filter (fun c => A.Stored j c ∨ A.Stored c j)).card ≤ A.M) :
    ∃ B, (transposeInPlace A >>= transposeInPlace) = .ok B ∧ B.M = A.M ∧ B.Represents N a := by
  obtain ⟨B, e, h1, h2, h3⟩ := transposeInPlace_spec (represents_iff.1 hA) hfit
  have hfit' : ∀ j, j < N →
      ((Finset.range N).filter (fun c => B.Stored j c ∨ B.Stored c j)).card ≤ B.M := by
    intro j hj
    rw [h1]
    refine le_trans (Finset.card_le_card ?_) (hfit j hj)
    intro c hc
    simp only [Finset.mem_filter, Finset.mem_range] at hc ⊢
    rw [h3 j c hj hc.1, h3 c j hc.1 hj] at hc
    exact ⟨hc.1, hc.2.symm⟩
  obtain ⟨C, e', g1, g2, _⟩ := transposeInPlace_spec h2 hfit'
  exact ⟨C, by rw [e, Res.bind_ok, e'], by rw [g1, h1], represents_iff.2 g2⟩

/-- With `M ≥ N` the condition always holds. -/
theorem C18_transpose_wide {N : Nat} {A : Ell R} {a : Spec.Mat R} (hA : A.Represents N a)
    (hM : N ≤ A.M) :
    ∃ B, transposeInPlace A = .ok B ∧ B.M = A.M ∧ B.Represents N (Spec.transpose a) :=
  C18_transpose_partial hA (fun _ _ => le_trans (Finset.card_filter_le _ _)
    (by rw [Finset.card_range]; exact hM))

example : ∃ B, (transposeInPlace exA >>= transposeInPlace) = .ok B ∧ B.M = 4 ∧
    B.Represents 3 exa :=
  C18_transpose_twice_partial exA_rep (by decide)

/-- The cyclic permutation matrix of size 3 with one slot per row. -/
def exCyc : Ell Int := ofRows 3 1 (fun i => [((i + 1) % 3, 1)])

/-- **C18 fails** without the condition: a cyclic permutation matrix has one entry in every row
and in every column, so it and its transpose fit into `M = 1`; yet the in-place transposition
destroys it.  The transpose has the element `(1,0) = 1`, the result has `0` there. -/
theorem C18_transient_overflow_witness :
    (∀ c, c < 3 → ((Finset.range 3).filter (fun i => exCyc.Stored i c)).card ≤ exCyc.M) ∧
      exCyc.getElement 0 1 = .ok 1 ∧
      (do let B ← transposeInPlace exCyc
          B.getElement 1 0) ≠ .ok 1 := by decide

/-! ## C19 -/

/-- The Hermitian completion of the upper (`'u'`) triangle. -/
def Spec.adjUpper (conj : R → R) (a : Spec.Mat R) : Spec.Mat R :=
  fun i j => if j < i then conj (a j i) else a i j

/-- The Hermitian completion of the lower (`'l'`) triangle. -/
def Spec.adjLower (conj : R → R) (a : Spec.Mat R) : Spec.Mat R :=
  fun i j => if i < j then conj (a j i) else a i j

/-- **C19 (partial), upper triangle**, for every interleaving `sc` of the row iterations: if the
strict lower triangle is empty and the rows have room for their mirrored entries, the run is safe,
it is finished as soon as every row has been scheduled more than `M` times, and a finished run has
completed the matrix.  The fourth condition comes from the array of `M` locks, which the code
indexes with row numbers.  Missing: a populated lower triangle
(`C19_populated_witness`) and row numbers above `M` (`C19_lock_witness`). -/
theorem C19_upper_partial {N : Nat} {A : Ell R} {a : Spec.Mat R} (hA : A.Represents N a)
    {conj : R → R} (hconj : conj 0 = 0)
    (hempty : ∀ i j, i < N → j < i → ¬ A.Stored i j)
    (hfit : ∀ i, i < N →
      A.nnz.get i + ((Finset.range N).filter (fun c => c < i ∧ A.Stored c i)).card ≤ A.M)
    (hlock : ∀ i j, i < N → i < j → A.Stored i j → j < A.M)
    (sc : List Nat) (hsc : ∀ i ∈ sc, i < N) :
    ∃ B pc, adjungate conj A 'u' sc = .ok (B, pc) ∧
      ((∀ i, i < N → A.M < sc.count i) → AdjDone N pc) ∧
      (AdjDone N pc → B.M = A.M ∧ B.Represents N (Spec.adjUpper conj a)) := by
  have hsel : ∀ i j : Nat, (decide (j > 0) && decide (j > i)) = true ↔ i < j := by
    intro i j
    simp only [Bool.and_eq_true, decide_eq_true_eq]; omega
  obtain ⟨B, pc, e, h1, h2⟩ := adjLoop_spec (conj := conj)
    (sel := fun i ll => decide (ll > 0) && decide (ll > i)) (represents_iff.1 hA)
    (by
      intro r hr
      refine le_trans (Nat.add_le_add_left (Finset.card_le_card ?_) _) (hfit r hr)
      intro c hc
      simp only [Finset.mem_filter, hsel] at hc ⊢
      exact hc)
    (by
      intro i j hij
      have := (hsel i j).1 hij
      rw [← Bool.not_eq_true]
      intro hji
      have := (hsel j i).1 hji
      omega)
    (by intro i j hi hj hij; exact hempty j i hj ((hsel i j).1 hij))
    (by intro i j hi hst hij; exact hlock i j hi ((hsel i j).1 hij) hst) hconj sc hsc
  refine ⟨B, pc, by unfold adjungate; rw [if_pos rfl]; exact e, h1, fun hd => ?_⟩
  obtain ⟨g1, g2⟩ := h2 hd
  refine ⟨g1, represents_iff.2 ⟨g2.shape, g2.dim, g2.le, g2.good, fun i j hi hj => ?_⟩⟩
  rw [g2.den i j hi hj]
  unfold Spec.adjUpper
  by_cases hji : j < i
  · rw [if_pos ((hsel j i).2 hji), if_pos hji]
  · rw [if_neg (fun hc => hji ((hsel j i).1 hc)), if_neg hji]

/-- **C19 (partial), lower triangle.** -/
theorem C19_lower_partial {N : Nat} {A : Ell R} {a : Spec.Mat R} (hA : A.Represents N a)
    {conj : R → R} (hconj : conj 0 = 0)
    (hempty : ∀ i j, i < j → j < N → ¬ A.Stored i j)
    (hfit : ∀ i, i < N →
      A.nnz.get i + ((Finset.range N).filter (fun c => i < c ∧ A.Stored c i)).card ≤ A.M)
    (hlock : ∀ i j, i < N → j < i → A.Stored i j → j < A.M)
    (sc : List Nat) (hsc : ∀ i ∈ sc, i < N) :
    ∃ B pc, adjungate conj A 'l' sc = .ok (B, pc) ∧
      ((∀ i, i < N → A.M < sc.count i) → AdjDone N pc) ∧
      (AdjDone N pc → B.M = A.M ∧ B.Represents N (Spec.adjLower conj a)) := by
  have hsel : ∀ i j : Nat, (decide (j < i)) = true ↔ j < i := by
    intro i j
    simp only [decide_eq_true_eq]
  obtain ⟨B, pc, e, h1, h2⟩ := adjLoop_spec (conj := conj)
    (sel := fun i ll => decide (ll < i)) (represents_iff.1 hA)
    (by
      intro r hr
      refine le_trans (Nat.add_le_add_left (Finset.card_le_card ?_) _) (hfit r hr)
      intro c hc
      simp only [Finset.mem_filter, hsel] at hc ⊢
      exact hc)
    (by
      intro i j hij
      have := (hsel i j).1 hij
      rw [← Bool.not_eq_true]
      intro hji
      have := (hsel j i).1 hji
      omega)
    (by intro i j hi hj hij; exact hempty j i ((hsel i j).1 hij) hi)
    (by intro i j hi hst hij; exact hlock i j hi ((hsel i j).1 hij) hst) hconj sc hsc
  refine ⟨B, pc, by unfold adjungate; rw [if_neg (by decide), if_pos rfl]; exact e, h1,
    fun hd => ?_⟩
  obtain ⟨g1, g2⟩ := h2 hd
  refine ⟨g1, represents_iff.2 ⟨g2.shape, g2.dim, g2.le, g2.good, fun i j hi hj => ?_⟩⟩
  rw [g2.den i j hi hj]
  unfold Spec.adjLower
  by_cases hji : i < j
  · rw [if_pos ((hsel j i).2 hji), if_pos hji]
  · rw [if_neg (fun hc => hji ((hsel j i).1 hc)), if_neg hji]

omit [CommRing R] in
/-- **C19**: any other selector is an error. -/
theorem C19_bad_selector (conj : R → R) (A : Ell R) {t : Char} (hu : t ≠ 'u') (hl : t ≠ 'l')
    (sc : List Nat) : adjungate conj A t sc = .error := by
  unfold adjungate
  rw [if_neg hu, if_neg hl]

/-- An upper triangular matrix. -/
def exU : Ell Int := ofRows 3 4 (fun i => match i with
  | 0 => [(2, 5), (0, 1), (1, -2)]
  | 1 => [(2, 3)]
  | _ => [(2, 4)])

theorem exU_rep : exU.Represents 3 (fun i j => SRow.den (match i with
  | 0 => [(2, 5), (0, 1), (1, -2)]
  | 1 => [(2, 3)]
  | _ => [(2, 4)]) j) := ofRows_rep (by decide)

/-- An interleaving in which the three rows take turns. -/
def exTurns : List Nat := (List.replicate 5 [0, 1, 2]).flatten

example : ∃ B pc, adjungate (fun x => -x) exU 'u' exTurns = .ok (B, pc) ∧ AdjDone 3 pc ∧
    B.Represents 3 (Spec.adjUpper (fun x => -x) (fun i j => SRow.den (match i with
      | 0 => [(2, 5), (0, 1), (1, -2)]
      | 1 => [(2, 3)]
      | _ => [(2, 4)]) j)) := by
  obtain ⟨B, pc, e, h1, h2⟩ := C19_upper_partial exU_rep (conj := fun x : Int => -x) (by decide)
    (fun i j hi hji => by
      have : ∀ i, i < 3 → ∀ j, j < i → ¬ exU.Stored i j := by decide
      exact this i hi j hji) (by decide)
    (fun i j hi _ hst => by
      have := (exU_rep.wf.col_lt i · hi) 
      obtain ⟨k, hk, he⟩ := hst
      have := this k hk
      rw [he] at this
      exact lt_trans this (by decide)) exTurns (by decide)
  have hd := h1 (by decide)
  exact ⟨B, pc, e, hd, (h2 hd).2⟩

/-- **C19 fails** if the other triangle is populated: the mirrored entry is appended behind the
old one and is never found.  `A = ((0,7),(9,0))`; the completion of the upper triangle has
`(1,0) = 7`, the library returns `9`. -/
theorem C19_populated_witness :
    (do let r ← adjungate (fun x => x) (ofRows 2 2 (fun i => if i = 0 then [(1, (7 : Int))]
          else [(0, 9)])) 'u' [0, 0, 0, 1, 1, 1]
        r.1.getElement 1 0) = .ok 9 := by decide

/-- **C19 fails** (undefined behaviour) for an upper triangular matrix with `M = 1`, `N = 2`: the
lock of row 1 does not exist. -/
theorem C19_lock_witness :
    adjungate (fun x => x) (ofRows 2 1 (fun i => if i = 0 then [(1, (7 : Int))] else [])) 'u'
      [0, 0, 0, 1] = .ub := rfl

end Bml.Props
