import Verif.Ellpack.Stored

/-!
# Property theorems: ELLPACK element, row and diagonal access (C01, C04, C05, C07, C34)

`A.Represents N a` says: `A` is a well-formed `N × N` ELLPACK matrix and `bml_get_element(A,i,j)`
returns `a i j` for all `i, j < N`.  `A.Stored i j` says that row `i` holds an entry for column
`j`; `A.nnz.get i` is the number of entries of row `i` and `A.M` the capacity of a row.
-/

namespace Bml.Props

open Bml Bml.Ell

variable {R : Type} [CommRing R]

/-! ## Example matrices -/

/-- Rows of the first example matrix. -/
def exRowsA : Nat → SRow Int
  | 0 => [(1, 5), (0, 2)]
  | 1 => [(2, -3), (0, 1), (1, 4)]
  | _ => [(2, 7)]

/-- Rows of the second example matrix. -/
def exRowsB : Nat → SRow Int
  | 0 => [(0, 1), (1, -2)]
  | 1 => [(1, 6)]
  | _ => [(0, 3), (2, 1)]

/-- A `3 × 3` matrix with at most four entries per row. -/
def exA : Ell Int := ofRows 3 4 exRowsA
/-- Another one. -/
def exB : Ell Int := ofRows 3 4 exRowsB
/-- Its elements. -/
def exa : Spec.Mat Int := fun i j => (exRowsA i).den j
/-- Its elements. -/
def exb : Spec.Mat Int := fun i j => (exRowsB i).den j

theorem exA_rep : exA.Represents 3 exa := ofRows_rep (by decide)
theorem exB_rep : exB.Represents 3 exb := ofRows_rep (by decide)

/-- A threshold test: `|x| > 1`. -/
def exBig (x : Int) : Bool := decide (x.natAbs > 1)

/-- Two threads, rows out of order. -/
def exSched : Sched := [(1, 2), (0, 0), (1, 1)]

theorem exSched_ok : IsSched 0 3 exSched := by unfold IsSched exSched; decide

/-! ## C01 -/

/-- **C01 (partial).**  `bml_set_element` stores the value and changes no other element, if
either the column is not in the row yet and the row has room, or the row has more than two
entries (so that it is searched) and the column is stored or the row has room.

Missing: rows of one or two entries that already hold the column; there the claim is false, see
`C01_lost_write`. -/
theorem C01_set_element_partial {N : Nat} {A : Ell R} {a : Spec.Mat R} (hA : A.Represents N a)
    {i j : Nat} (hi : i < N) (hj : j < N) (v : R)
    (hroom : (¬ A.Stored i j ∧ A.nnz.get i < A.M) ∨
      (2 < A.nnz.get i ∧ (A.Stored i j ∨ A.nnz.get i < A.M))) :
    ∃ A', A.setElement i j v = .ok A' ∧ A'.M = A.M ∧ A'.Represents N (Spec.set a i j v) := by
  have h := wp_setElement (E := False) (represents_iff.1 hA) hi hj v (by
    rcases hroom with ⟨h1, h2⟩ | ⟨h1, h2 | h2⟩
    · exact Or.inr ⟨h2, fun k hk he => h1 ⟨k, hk, he⟩⟩
    · exact Or.inl ⟨h1, Or.inr h2⟩
    · exact Or.inl ⟨h1, Or.inl h2⟩)
  obtain ⟨A', e, h1, h2, _⟩ := Res.wp_exists h
  exact ⟨A', e, h1, represents_iff.2 h2⟩

example : ∃ A', exA.setElement 1 0 9 = .ok A' ∧ A'.M = 4 ∧
    A'.Represents 3 (Spec.set exa 1 0 9) :=
  C01_set_element_partial exA_rep (by decide) (by decide) 9 (by decide)

example : ∃ A', exA.setElement 0 2 9 = .ok A' ∧ A'.M = 4 ∧
    A'.Represents 3 (Spec.set exa 0 2 9) :=
  C01_set_element_partial exA_rep (by decide) (by decide) 9 (by decide)

/-- **C01 fails** on every matrix whose row `i` has at most two entries, one of them for column
`j`: the call succeeds, but `bml_get_element` still returns the old element, whatever value was
written. -/
theorem C01_lost_write {N : Nat} {A : Ell R} {a : Spec.Mat R} (hA : A.Represents N a)
    {i j : Nat} (hi : i < N) (hj : j < N) (v : R) (hst : A.Stored i j)
    (hshort : A.nnz.get i ≤ 2) (hroom : A.nnz.get i < A.M) :
    ∃ A', A.setElement i j v = .ok A' ∧ A'.getElement i j = .ok (a i j) := by
  have hR := represents_iff.1 hA
  exact ⟨_, setElement_append hR.shape (by rw [hR.dim]; exact hi) v hroom (Or.inr hshort),
    getElement_app_stored hR hi hj v hroom hst⟩

/-- **C01 fails**, concretely: in a `3 × 3` zero matrix of width 3, write 1 and then 2 to the
element (0,0); it reads 1. -/
theorem C01_lost_write_witness :
    (do let A ← (zeroMatrix 3 3 : Ell Int).setElement 0 0 1
        let A ← A.setElement 0 0 2
        A.getElement 0 0) = .ok 1 := by decide

/-- **C01 fails** without room: writing a new column into a full row reports nothing and
overwrites the first entry of the next row. -/
theorem C01_full_row_witness :
    (do let A ← (ofRows 4 3 (fun i => if i = 0 then [(0, 1), (1, 1), (2, 1)] else [(0, 5)]) :
              Ell Int).setElement 0 3 9
        A.getElement 1 0) = .ok 0 := by decide

/-- **C01 (partial), histories.**  Any sequence of writes to elements that are not stored yet,
no two to the same element, into rows with enough room, leaves exactly the matrix with all
these elements replaced. -/
theorem C01_history_partial {N : Nat} {A : Ell R} {a : Spec.Mat R} (hA : A.Represents N a)
    (ws : List (Nat × Nat × R))
    (hnew : ∀ w ∈ ws, w.1 < N ∧ w.2.1 < N ∧ ¬ A.Stored w.1 w.2.1)
    (hdistinct : (ws.map (fun w => (w.1, w.2.1))).Nodup)
    (hroom : ∀ i, i < N → A.nnz.get i + (ws.filter (fun w => w.1 = i)).length ≤ A.M) :
    ∃ A', forList ws A (fun w A => A.setElement w.1 w.2.1 w.2.2) = .ok A' ∧ A'.M = A.M ∧
      A'.Represents N (ws.foldl (fun a w => Spec.set a w.1 w.2.1 w.2.2) a) := by
  obtain ⟨A', e, h1, h2⟩ := writes_rep (fun A i j v => A.setElement i j v)
    (fun A i j v hS hi hc hno => setElement_append hS hi v hc (Or.inl hno)) ws A a
    (represents_iff.1 hA) hnew hdistinct hroom
  exact ⟨A', e, h1, represents_iff.2 h2⟩

example : ∃ A', forList [(0, 2, 3), (2, 0, 4), (2, 1, 5)] exA
      (fun w A => A.setElement w.1 w.2.1 w.2.2) = .ok A' ∧ A'.M = 4 ∧
    A'.Represents 3 ([(0, 2, 3), (2, 0, 4), (2, 1, 5)].foldl
      (fun a (w : Nat × Nat × Int) => Spec.set a w.1 w.2.1 w.2.2) exa) :=
  C01_history_partial exA_rep _ (by decide) (by decide) (by decide)

/-- **C01** for `bml_set_element_new`, whose contract is that the element is not stored: every
history of writes to new elements. -/
theorem C01_set_element_new {N : Nat} {A : Ell R} {a : Spec.Mat R} (hA : A.Represents N a)
    (ws : List (Nat × Nat × R))
    (hnew : ∀ w ∈ ws, w.1 < N ∧ w.2.1 < N ∧ ¬ A.Stored w.1 w.2.1)
    (hdistinct : (ws.map (fun w => (w.1, w.2.1))).Nodup)
    (hroom : ∀ i, i < N → A.nnz.get i + (ws.filter (fun w => w.1 = i)).length ≤ A.M) :
    ∃ A', forList ws A (fun w A => A.setElementNew w.1 w.2.1 w.2.2) = .ok A' ∧ A'.M = A.M ∧
      A'.Represents N (ws.foldl (fun a w => Spec.set a w.1 w.2.1 w.2.2) a) := by
  obtain ⟨A', e, h1, h2⟩ := writes_rep (fun A i j v => A.setElementNew i j v)
    (fun A i j v hS hi hc _ => setElementNew_append hS hi v hc) ws A a
    (represents_iff.1 hA) hnew hdistinct hroom
  exact ⟨A', e, h1, represents_iff.2 h2⟩

example : ∃ A', forList [(0, 2, 3), (2, 0, 4), (2, 1, 5)] exA
      (fun w A => A.setElementNew w.1 w.2.1 w.2.2) = .ok A' ∧ A'.M = 4 ∧
    A'.Represents 3 ([(0, 2, 3), (2, 0, 4), (2, 1, 5)].foldl
      (fun a (w : Nat × Nat × Int) => Spec.set a w.1 w.2.1 w.2.2) exa) :=
  C01_set_element_new exA_rep _ (by decide) (by decide) (by decide)

/-! ## C04 -/

/-- `bml_get_row` returns the row. -/
theorem C04_get_row {N : Nat} {A : Ell R} {a : Spec.Mat R} (hA : A.Represents N a) {i : Nat}
    (hi : i < N) : ∃ row, A.getRow i = .ok row ∧ row.size = N ∧ ∀ j, j < N → row.get j = a i j :=
  Res.wp_exists (wp_getRow (represents_iff.1 hA) hi)

example : ∃ row, exA.getRow 1 = .ok row ∧ row.size = 3 ∧ ∀ j, j < 3 → row.get j = exa 1 j :=
  C04_get_row exA_rep (by decide)

/-- **C04.**  `bml_set_row(A,i,row,t)` leaves in row `i` the entries of `row` above threshold,
and all other rows unchanged, provided the kept entries fit. -/
theorem C04_set_row {N : Nat} {A : Ell R} {a : Spec.Mat R} (hA : A.Represents N a) {i : Nat}
    (hi : i < N) {row : Arr R} (hrow : N ≤ row.size) (big : R → Bool)
    (hfit : ((Finset.range N).filter (fun j => big (row.get j) = true)).card ≤ A.M) :
    ∃ A', A.setRow i row big = .ok A' ∧ A'.M = A.M ∧ A'.Represents N
      (fun i' j => if i' = i then Spec.keep big (row.get j) else a i' j) := by
  have hR := represents_iff.1 hA
  obtain ⟨A', e, h1, h2, h3, _⟩ := Res.wp_exists
    (wp_setRowGen (E := False) hR.shape hR.dim hi hrow big hfit)
  refine ⟨A', e, h2.M, represents_iff.2 (rep_of_rowSat h1 (by rw [h2.N, hR.dim]) ?_)⟩
  intro i' hi'
  by_cases he : i' = i
  · subst he
    refine ⟨h3.1, h3.2.1.1, fun j hj => ?_⟩
    rw [h3.2.1.2 j hj]; simp
  · have := h2.rowSat he (hR.rowSat hi')
    refine ⟨this.1, this.2.1, fun j hj => ?_⟩
    rw [this.2.2 j hj]; simp [he]

/-- **C04.**  Row write, row read. -/
theorem C04_set_get_row {N : Nat} {A : Ell R} {a : Spec.Mat R} (hA : A.Represents N a) {i : Nat}
    (hi : i < N) {row : Arr R} (hrow : N ≤ row.size) (big : R → Bool)
    (hfit : ((Finset.range N).filter (fun j => big (row.get j) = true)).card ≤ A.M) :
    ∃ A' row', A.setRow i row big = .ok A' ∧ A'.getRow i = .ok row' ∧ row'.size = N ∧
      ∀ j, j < N → row'.get j = Spec.keep big (row.get j) := by
  obtain ⟨A', e, _, h⟩ := C04_set_row hA hi hrow big hfit
  obtain ⟨row', e', h1, h2⟩ := C04_get_row h hi
  exact ⟨A', row', e, e', h1, fun j hj => by rw [h2 j hj, if_pos rfl]⟩

example : ∃ A' row', exA.setRow 1 ⟨3, fun j => if j = 0 then 1 else 8⟩ exBig = .ok A' ∧
    A'.getRow 1 = .ok row' ∧ row'.size = 3 ∧
    ∀ j, j < 3 → row'.get j = Spec.keep exBig (if j = 0 then 1 else 8) :=
  C04_set_get_row exA_rep (by decide) (by decide) exBig (by decide)

/-- **C04 fails** when the row does not fit: no report, the next row is overwritten. -/
theorem C04_overfull_witness :
    (do let A ← (ofRows 2 1 (fun i => [(0, (i : Int) + 4)])).setRow 0 ⟨2, fun _ => 3⟩ exBig
        A.getElement 1 0) = .ok 0 := by decide

/-! ## C05 -/

/-- `bml_get_diagonal` returns the diagonal. -/
theorem C05_get_diagonal {N : Nat} {A : Ell R} {a : Spec.Mat R} (hA : A.Represents N a) :
    ∃ d, A.getDiagonal = .ok d ∧ d.size = N ∧ ∀ i, i < N → d.get i = a i i :=
  Res.wp_exists (wp_getDiagonal (represents_iff.1 hA))

/-- **C05.**  `bml_set_diagonal(A,d,t)` sets the diagonal to the thresholded `d` and leaves the
off-diagonal elements unchanged, provided there is room where a diagonal element has to be
added. -/
theorem C05_set_diagonal {N : Nat} {A : Ell R} {a : Spec.Mat R} (hA : A.Represents N a)
    {diag : Arr R} (hsz : N ≤ diag.size) (big : R → Bool)
    (hroom : ∀ i, i < N → big (diag.get i) = false ∨ A.nnz.get i < A.M ∨ A.Stored i i) :
    ∃ A', A.setDiagonal diag big = .ok A' ∧ A'.M = A.M ∧ A'.Represents N
      (fun i j => if i = j then Spec.keep big (diag.get i) else a i j) := by
  obtain ⟨A', e, h1, h2⟩ := Res.wp_exists
    (wp_setDiagonal (E := False) (represents_iff.1 hA) hsz big hroom)
  exact ⟨A', e, h1, represents_iff.2 h2⟩

/-- **C05.**  Diagonal write, diagonal read. -/
theorem C05_set_get_diagonal {N : Nat} {A : Ell R} {a : Spec.Mat R} (hA : A.Represents N a)
    {diag : Arr R} (hsz : N ≤ diag.size) (big : R → Bool)
    (hroom : ∀ i, i < N → big (diag.get i) = false ∨ A.nnz.get i < A.M ∨ A.Stored i i) :
    ∃ A' d, A.setDiagonal diag big = .ok A' ∧ A'.getDiagonal = .ok d ∧ d.size = N ∧
      ∀ i, i < N → d.get i = Spec.keep big (diag.get i) := by
  obtain ⟨A', e, _, h⟩ := C05_set_diagonal hA hsz big hroom
  obtain ⟨d, e', h1, h2⟩ := C05_get_diagonal h
  exact ⟨A', d, e, e', h1, fun i hi => by rw [h2 i hi, if_pos rfl]⟩

example : ∃ A' d, exB.setDiagonal ⟨3, fun i => (i : Int) + 1⟩ exBig = .ok A' ∧
    A'.getDiagonal = .ok d ∧ d.size = 3 ∧
    ∀ i, i < 3 → d.get i = Spec.keep exBig ((i : Int) + 1) :=
  C05_set_get_diagonal exB_rep (by decide) exBig (by decide)

/-! ## C34 -/

/-- **C34.**  `bml_get_element` with a row or column outside `[0,N)` is an error, whatever the
content of the matrix (well-formed or not). -/
theorem C34_out_of_range (A : Ell R) (i j : Int)
    (h : i < 0 ∨ (A.N : Int) ≤ i ∨ j < 0 ∨ (A.N : Int) ≤ j) : A.getElement i j = .error := by
  unfold getElement
  by_cases h1 : i < 0 ∨ i ≥ A.N
  · rw [if_pos h1]
  · rw [if_neg h1, if_pos (by omega)]

/-- **C34.**  On a well-formed matrix `bml_get_element` never reads outside the matrix: it is an
error exactly for the indices out of range, and returns a value otherwise. -/
theorem C34_in_range {N : Nat} {A : Ell R} {a : Spec.Mat R} (hA : A.Represents N a) (i j : Int) :
    A.getElement i j = .error ∧ (i < 0 ∨ (N : Int) ≤ i ∨ j < 0 ∨ (N : Int) ≤ j) ∨
    A.getElement i j = .ok (a i.toNat j.toNat) ∧ (0 ≤ i ∧ i < N ∧ 0 ≤ j ∧ j < N) := by
  by_cases h : i < 0 ∨ (N : Int) ≤ i ∨ j < 0 ∨ (N : Int) ≤ j
  · exact Or.inl ⟨C34_out_of_range A i j (by rw [hA.dim]; exact h), h⟩
  · refine Or.inr ⟨?_, by omega⟩
    have := hA.get i.toNat j.toNat (by omega) (by omega)
    rwa [Int.toNat_of_nonneg (by omega), Int.toNat_of_nonneg (by omega)] at this

example : exA.getElement (-1) 0 = .error ∧ exA.getElement 1 3 = .error ∧
    exA.getElement 1 2 = .ok (-3) := by decide

end Bml.Props
