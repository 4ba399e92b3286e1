import Verif.Fortran.Access
import Verif.Props.Elemental
import Verif.Props.EllOps
import Verif.Props.Csr2
import Verif.Props.Dense2
import Verif.Wlp

/-!
# C72: element, row and diagonal access through the Fortran interface

Rows and columns are counted from one.  `elem1 a i j` is element `(i,j)` of the matrix in this
counting.
-/

namespace Bml.Fortran

open Elemental (Kind)

variable {R : Type} [CommRing R]

/-- Element `(i,j)` counted from one. -/
def elem1 (a : Spec.Mat R) (i j : Nat) : R := a (i - 1) (j - 1)

/-- `A` is a well-formed `N × N` matrix with the elements `a` (counted from zero). -/
def Mat.Represents (A : Mat R) (N : Nat) (a : Spec.Mat R) : Prop :=
  match A with
  | .dense A => A.Represents N a
  | .ellpack A => A.Represents N a
  | .csr A => A.Represents N a

theorem cIndex_ok {i : Nat} (h : 1 ≤ i) : cIndex ((i : Int) - 1) = .ok (i - 1) := by
  unfold cIndex
  rw [if_neg (by omega)]
  congr 1
  omega

theorem sub_one_cast {i : Nat} (h : 1 ≤ i) : (i : Int) - 1 = ((i - 1 : Nat) : Int) := by omega

theorem typed_same {α : Type} (f : Kind) (r : Res α) : typed f f r = r := if_pos rfl

theorem copyOut_ok {n : Nat} (junk : Nat → R) {x : Arr R} (h : n ≤ x.size) :
    ∃ r, copyOut n junk x = .ok r ∧ r.size = n ∧ ∀ k, k < n → r.get k = x.get k := by
  refine Res.wp_exists ?_
  unfold copyOut
  refine wp_loop' (fun k (y : Arr R) => y.size = n ∧ ∀ q, q < k → y.get q = x.get q)
    ⟨rfl, fun q hq => by omega⟩ ?_ (fun _ h => h)
  rintro k hk y ⟨h1, h2⟩
  rw [Arr.read_ok (by omega), Res.bind_ok, Arr.write_ok _ (by omega)]
  refine ⟨h1, fun q hq => ?_⟩
  by_cases hqk : q = k
  · subst hqk; exact upd_same _ _ _
  · exact (upd_ne _ _ hqk).trans (h2 q (by omega))

theorem Mat.Represents.n_eq {A : Mat R} {N : Nat} {a : Spec.Mat R} (h : A.Represents N a) :
    A.n = N := by
  cases A with
  | dense A => exact h.dim
  | ellpack A => exact h.dim
  | csr A => exact h.dim

end Bml.Fortran

namespace Bml.Props

open Bml Bml.Fortran
open Bml.Elemental (Kind)

variable {R : Type} [CommRing R]

/-- **C72** `bml_get_row(a, i, row)`: a vector of `N` elements, element `j` of which is element
`(i,j)` of the matrix. -/
theorem C72_get_row {N : Nat} {A : Mat R} {a : Spec.Mat R} (hA : A.Represents N a) (f : Kind)
    (junk junk' : Nat → R) {i : Nat} (h1 : 1 ≤ i) (hi : i ≤ N) :
    ∃ r, getRow f f junk junk' A i = .ok r ∧ r.size = N ∧
      ∀ j, 1 ≤ j → j ≤ N → at1 r j = elem1 a i j := by
  have key : ∃ x, (match A with
      | .dense A => A.getRow (i - 1) junk
      | .ellpack A => A.getRow (i - 1)
      | .csr A => A.getRow (i - 1)) = .ok x ∧ x.size = N ∧ ∀ j, j < N → x.get j = a (i - 1) j := by
    cases A with
    | dense A => exact C04_dense_get_row hA (by omega) junk
    | ellpack A => exact C04_get_row hA (by omega)
    | csr A => exact C04_csr_get_row hA (by omega)
  obtain ⟨x, e, hs, hx⟩ := key
  obtain ⟨r, e', hr, hg⟩ := copyOut_ok junk' (n := N) (x := x) (by omega)
  refine ⟨r, ?_, hr, fun j hj hj' => ?_⟩
  · unfold Fortran.getRow
    rw [typed_same, cIndex_ok h1, Res.bind_ok, hA.n_eq]
    cases A <;> simp only at e ⊢ <;> rw [e, Res.bind_ok, e']
  · unfold at1 elem1
    rw [hg _ (by omega), hx _ (by omega)]

/-- **C72** `bml_get_diagonal(a, diagonal)`: a vector of `N` elements, element `i` of which is element
`(i,i)` of the matrix. -/
theorem C72_get_diagonal {N : Nat} {A : Mat R} {a : Spec.Mat R} (hA : A.Represents N a) (f : Kind)
    (junk junk' : Nat → R) :
    ∃ r, getDiagonal f f junk junk' A = .ok r ∧ r.size = N ∧
      ∀ i, 1 ≤ i → i ≤ N → at1 r i = elem1 a i i := by
  have key : ∃ x, (match A with
      | .dense A => A.getDiagonal junk
      | .ellpack A => A.getDiagonal
      | .csr A => A.getDiagonal) = .ok x ∧ x.size = N ∧ ∀ j, j < N → x.get j = a j j := by
    cases A with
    | dense A =>
      exact Res.wp_exists (Dense.wp_getDiagonal (E := False) (Dense.represents_iff.1 hA) junk)
    | ellpack A => exact C05_get_diagonal hA
    | csr A => exact C05_csr_get_diagonal hA
  obtain ⟨x, e, hs, hx⟩ := key
  obtain ⟨r, e', hr, hg⟩ := copyOut_ok junk' (n := N) (x := x) (by omega)
  refine ⟨r, ?_, hr, fun j hj hj' => ?_⟩
  · unfold Fortran.getDiagonal
    rw [typed_same, hA.n_eq]
    cases A <;> simp only at e ⊢ <;> rw [e, Res.bind_ok, e']
  · unfold at1 elem1
    rw [hg _ (by omega), hx _ (by omega)]

/-- An ELLPACK row can take a new value for the column without losing it: the column is not stored
and there is room, or the row has more than two entries and stores it or has room (see C01).  No
condition for the other formats. -/
def Takes (A : Mat R) (i j : Nat) : Prop :=
  match A with
  | .ellpack A => (¬ A.Stored (i - 1) (j - 1) ∧ A.nnz.get (i - 1) < A.M) ∨
      (2 < A.nnz.get (i - 1) ∧ (A.Stored (i - 1) (j - 1) ∨ A.nnz.get (i - 1) < A.M))
  | _ => True

omit [CommRing R] in
theorem set_elem1 (a : Spec.Mat R) {i j : Nat} (h1 : 1 ≤ i) (h2 : 1 ≤ j) (v : R) {i' j' : Nat}
    (h1' : 1 ≤ i') (h2' : 1 ≤ j') : elem1 (Spec.set a (i - 1) (j - 1) v) i' j' =
      if i' = i ∧ j' = j then v else elem1 a i' j' := by
  unfold elem1 Spec.set
  by_cases h : i' = i ∧ j' = j
  · obtain ⟨rfl, rfl⟩ := h; simp
  · rw [if_neg h, if_neg (by omega)]

/-- **C72 (partial)** `bml_set_element(a, i, j, x)` replaces element `(i,j)` and no other, as
`bml_get_row` shows.  Partial: ELLPACK rows must be able to take the element. -/
theorem C72_set_element_partial {N : Nat} {A : Mat R} {a : Spec.Mat R} (hA : A.Represents N a)
    (f : Kind) (junk junk' : Nat → R) {i j : Nat} (h1 : 1 ≤ i) (hi : i ≤ N) (h2 : 1 ≤ j) (hj : j ≤ N)
    (v : R) (hroom : Takes A i j) :
    ∃ A', setElement f f A i j v = .ok A' ∧
      ∀ i', 1 ≤ i' → i' ≤ N → ∃ r, getRow f f junk junk' A' i' = .ok r ∧ r.size = N ∧
        ∀ j', 1 ≤ j' → j' ≤ N → at1 r j' = if i' = i ∧ j' = j then v else elem1 a i' j' := by
  have key : ∃ A', setElement f f A i j v = .ok A' ∧
      A'.Represents N (Spec.set a (i - 1) (j - 1) v) := by
    unfold setElement
    rw [typed_same]
    cases A with
    | dense A =>
      obtain ⟨B, e, h⟩ := Dense.exists_of_wp (Dense.wp_setElement (E := False)
        (Dense.represents_iff.1 hA) (i := i - 1) (j := j - 1) (by omega) (by omega) v)
      simp only
      rw [sub_one_cast h1, sub_one_cast h2, e]
      exact ⟨.dense B, rfl, h⟩
    | ellpack A =>
      obtain ⟨B, e, -, h⟩ := C01_set_element_partial hA (i := i - 1) (j := j - 1) (by omega)
        (by omega) v hroom
      simp only
      rw [cIndex_ok h1, cIndex_ok h2, Res.bind_ok, Res.bind_ok, e]
      exact ⟨.ellpack B, rfl, h⟩
    | csr A =>
      obtain ⟨B, e, -, h⟩ := Csr.exists_of_wpM (Csr.wp_setElement (E := False)
        (Csr.represents_iff.1 hA) (i := i - 1) (j := j - 1) (by omega) (by omega) v)
      simp only
      rw [cIndex_ok h1, cIndex_ok h2, Res.bind_ok, Res.bind_ok, e]
      exact ⟨.csr B, rfl, h⟩
  obtain ⟨A', e, h⟩ := key
  refine ⟨A', e, fun i' g1 g2 => ?_⟩
  obtain ⟨r, e', hr, hg⟩ := C72_get_row h f junk junk' g1 g2
  exact ⟨r, e', hr, fun j' g3 g4 => by rw [hg j' g3 g4, set_elem1 a h1 h2 v g1 g3]⟩

/-- The element is not stored in a sparse matrix, and an ELLPACK row has room for it. -/
def Fresh (A : Mat R) (i j : Nat) : Prop :=
  match A with
  | .dense _ => True
  | .ellpack A => ¬ A.Stored (i - 1) (j - 1) ∧ A.nnz.get (i - 1) < A.M
  | .csr A => ¬ A.Stored (i - 1) (j - 1)

/-- **C72** `bml_set_element_new(a, i, j, x)`, for an element not stored yet. -/
theorem C72_set_element_new {N : Nat} {A : Mat R} {a : Spec.Mat R} (hA : A.Represents N a)
    (f : Kind) (junk junk' : Nat → R) {i j : Nat} (h1 : 1 ≤ i) (hi : i ≤ N) (h2 : 1 ≤ j) (hj : j ≤ N)
    (v : R) (hnew : Fresh A i j) :
    ∃ A', setElementNew f f A i j v = .ok A' ∧
      ∀ i', 1 ≤ i' → i' ≤ N → ∃ r, getRow f f junk junk' A' i' = .ok r ∧ r.size = N ∧
        ∀ j', 1 ≤ j' → j' ≤ N → at1 r j' = if i' = i ∧ j' = j then v else elem1 a i' j' := by
  have key : ∃ A', setElementNew f f A i j v = .ok A' ∧
      A'.Represents N (Spec.set a (i - 1) (j - 1) v) := by
    unfold setElementNew
    rw [typed_same]
    cases A with
    | dense A =>
      obtain ⟨B, e, h⟩ := Dense.exists_of_wp (Dense.wp_setElement (E := False)
        (Dense.represents_iff.1 hA) (i := i - 1) (j := j - 1) (by omega) (by omega) v)
      simp only
      rw [sub_one_cast h1, sub_one_cast h2, e]
      exact ⟨.dense B, rfl, h⟩
    | ellpack A =>
      obtain ⟨B, e, -, h⟩ := C01_set_element_new hA [(i - 1, j - 1, v)]
        (by intro w hw; rw [List.mem_singleton] at hw; subst hw
            exact ⟨by simp only; omega, by simp only; omega, hnew.1⟩) (by simp)
        (by
          intro k hk
          by_cases hki : i - 1 = k
          · subst hki; simpa using hnew.2
          · simpa [hki] using (Ell.represents_iff.1 hA).le k hk)
      have e' : A.setElementNew (i - 1) (j - 1) v = .ok B := by
        rw [← e]
        simp only [forList]
        cases A.setElementNew (i - 1) (j - 1) v <;> rfl
      simp only
      rw [cIndex_ok h1, cIndex_ok h2, Res.bind_ok, Res.bind_ok, e']
      exact ⟨.ellpack B, rfl, h⟩
    | csr A =>
      obtain ⟨B, e, -, h⟩ := Csr.exists_of_wpM (Csr.wp_setElementNew (E := False)
        (Csr.represents_iff.1 hA) (i := i - 1) (j := j - 1) (by omega) (by omega) hnew v)
      simp only
      rw [cIndex_ok h1, cIndex_ok h2, Res.bind_ok, Res.bind_ok, e]
      exact ⟨.csr B, rfl, h⟩
  obtain ⟨A', e, h⟩ := key
  refine ⟨A', e, fun i' g1 g2 => ?_⟩
  obtain ⟨r, e', hr, hg⟩ := C72_get_row h f junk junk' g1 g2
  exact ⟨r, e', hr, fun j' g3 g4 => by rw [hg j' g3 g4, set_elem1 a h1 h2 v g1 g3]⟩

/-- The values of the row above threshold fit into an ELLPACK row.  No condition for the other
formats. -/
def RowFits (A : Mat R) (big : R → Bool) (row : Arr R) : Prop :=
  match A with
  | .ellpack A => ((Finset.range A.N).filter (fun j => big (row.get j) = true)).card ≤ A.M
  | _ => True

/-- The value that remains of `x`: the dense format ignores the threshold. -/
def remains (A : Mat R) (big : R → Bool) (x : R) : R :=
  match A with
  | .dense _ => x
  | _ => Spec.keep big x

theorem set_row_rep {N : Nat} {A : Mat R} {a : Spec.Mat R} (hA : A.Represents N a) (f : Kind)
    (nonzero : R → Bool) (junk : Nat → Nat) {i : Nat} (h1 : 1 ≤ i) (hi : i ≤ N) {row : Arr R}
    (hrow : N ≤ row.size) (t : Option (R → Bool)) (hfit : RowFits A (test nonzero t) row) :
    ∃ A', setRow f f nonzero junk A i row t = .ok A' ∧ A'.Represents N (fun i' j =>
      if i' = i - 1 then remains A (test nonzero t) (row.get j) else a i' j) := by
  unfold Fortran.setRow
  rw [typed_same, cIndex_ok h1, Res.bind_ok]
  cases A with
  | dense A =>
    obtain ⟨B, e, h, -⟩ := C04_dense_set_get_row_partial hA (i := i - 1) (by omega) hrow (fun _ => 0)
    simp only
    rw [e]
    exact ⟨.dense B, rfl, h⟩
  | ellpack A =>
    have hd : A.N = N := hA.dim
    obtain ⟨B, e, -, h⟩ := C04_set_row hA (i := i - 1) (by omega) hrow (test nonzero t)
      (by rw [← hd]; exact hfit)
    simp only
    rw [e]
    exact ⟨.ellpack B, rfl, h⟩
  | csr A =>
    obtain ⟨B, e, h, -⟩ := C04_csr_set_get_row hA (i := i - 1) (by omega) hrow (test nonzero t) junk
    simp only
    rw [e]
    exact ⟨.csr B, rfl, h⟩

/-- **C72** `bml_set_row(a, i, row, threshold)` replaces row `i` by the elements of `row` above
threshold and changes no other row, as `bml_get_row` shows. -/
theorem C72_set_row {N : Nat} {A : Mat R} {a : Spec.Mat R} (hA : A.Represents N a) (f : Kind)
    (nonzero : R → Bool) (junk : Nat → Nat) (junk' junk'' : Nat → R) {i : Nat} (h1 : 1 ≤ i)
    (hi : i ≤ N) {row : Arr R} (hrow : N ≤ row.size) (t : R → Bool) (hfit : RowFits A t row) :
    ∃ A', setRow f f nonzero junk A i row (some t) = .ok A' ∧
      ∀ i', 1 ≤ i' → i' ≤ N → ∃ r, getRow f f junk' junk'' A' i' = .ok r ∧ r.size = N ∧
        ∀ j, 1 ≤ j → j ≤ N →
          at1 r j = if i' = i then remains A t (at1 row j) else elem1 a i' j := by
  obtain ⟨A', e, h⟩ := set_row_rep hA f nonzero junk h1 hi hrow (some t) hfit
  refine ⟨A', e, fun i' g1 g2 => ?_⟩
  obtain ⟨r, e', hr, hg⟩ := C72_get_row h f junk' junk'' g1 g2
  refine ⟨r, e', hr, fun j g3 g4 => ?_⟩
  rw [hg j g3 g4]
  unfold elem1
  beta_reduce
  by_cases hii : i' = i
  · rw [if_pos (by omega), if_pos hii]; rfl
  · rw [if_neg (by omega), if_neg hii]

/-- **C72** Without a threshold the row that was set comes back, in every format. -/
theorem C72_set_get_row {N : Nat} {A : Mat R} {a : Spec.Mat R} (hA : A.Represents N a) (f : Kind)
    {nonzero : R → Bool} (hz : ∀ x, nonzero x = true ↔ x ≠ 0) (junk : Nat → Nat)
    (junk' junk'' : Nat → R) {i : Nat} (h1 : 1 ≤ i) (hi : i ≤ N) {row : Arr R} (hrow : N ≤ row.size)
    (hfit : RowFits A nonzero row) :
    ∃ A' r, setRow f f nonzero junk A i row none = .ok A' ∧ getRow f f junk' junk'' A' i = .ok r ∧
      r.size = N ∧ ∀ j, 1 ≤ j → j ≤ N → at1 r j = at1 row j := by
  obtain ⟨A', e, h⟩ := set_row_rep hA f nonzero junk h1 hi hrow none hfit
  obtain ⟨r, e', hr, hg⟩ := C72_get_row h f junk' junk'' h1 hi
  refine ⟨A', r, e, e', hr, fun j g1 g2 => ?_⟩
  rw [hg j g1 g2]
  unfold elem1
  beta_reduce
  rw [if_pos rfl]
  have : ∀ x, Spec.keep nonzero x = x := fun x => by
    unfold Spec.keep
    by_cases hx : nonzero x = true
    · rw [if_pos hx]
    · rw [if_neg hx]
      by_contra hne
      exact hx ((hz x).2 (Ne.symm hne))
  cases A
  · rfl
  · exact this _
  · exact this _

/-- An ELLPACK row has room for a diagonal element above threshold or stores it already. -/
def DiagonalFits (A : Mat R) (big : R → Bool) (d : Arr R) : Prop :=
  match A with
  | .ellpack A => ∀ i, i < A.N → big (d.get i) = false ∨ A.nnz.get i < A.M ∨ A.Stored i i
  | _ => True

/-- **C72** `bml_set_diagonal(a, diagonal, threshold)` replaces the diagonal by the elements of
`diagonal` above threshold and no other element. -/
theorem C72_set_diagonal {N : Nat} {A : Mat R} {a : Spec.Mat R} (hA : A.Represents N a) (f : Kind)
    (nonzero : R → Bool) (junk' junk'' : Nat → R) {d : Arr R} (hd : N ≤ d.size) (t : R → Bool)
    (hfit : DiagonalFits A t d) :
    ∃ A', setDiagonal f f nonzero A d (some t) = .ok A' ∧
      ∀ i', 1 ≤ i' → i' ≤ N → ∃ r, getRow f f junk' junk'' A' i' = .ok r ∧ r.size = N ∧
        ∀ j, 1 ≤ j → j ≤ N →
          at1 r j = if i' = j then remains A t (at1 d i') else elem1 a i' j := by
  have key : ∃ A', setDiagonal f f nonzero A d (some t) = .ok A' ∧
      A'.Represents N (fun i j => if i = j then remains A t (d.get i) else a i j) := by
    unfold Fortran.setDiagonal
    rw [typed_same]
    cases A with
    | dense A =>
      obtain ⟨B, e, h, -⟩ := C05_dense_set_get_diagonal_partial hA hd (fun _ => 0)
      simp only
      rw [e]
      exact ⟨.dense B, rfl, h⟩
    | ellpack A =>
      have hd' : A.N = N := hA.dim
      obtain ⟨B, e, -, h⟩ := C05_set_diagonal hA hd t (by rw [← hd']; exact hfit)
      simp only [test, Option.getD_some]
      rw [e]
      exact ⟨.ellpack B, rfl, h⟩
    | csr A =>
      obtain ⟨B, e, h, -⟩ := C05_csr_set_get_diagonal hA hd t
      simp only [test, Option.getD_some]
      rw [e]
      exact ⟨.csr B, rfl, h⟩
  obtain ⟨A', e, h⟩ := key
  refine ⟨A', e, fun i' g1 g2 => ?_⟩
  obtain ⟨r, e', hr, hg⟩ := C72_get_row h f junk' junk'' g1 g2
  refine ⟨r, e', hr, fun j g3 g4 => ?_⟩
  rw [hg j g3 g4]
  unfold elem1
  beta_reduce
  by_cases hij : i' = j
  · rw [if_pos (by omega), if_pos hij]; rfl
  · rw [if_neg (by omega), if_neg hij]

/-- **C72** `bml_get_row_bandwidth(a, i)` of the dense format counts the nonzeros of row `i`; of the
sparse formats, its stored elements. -/
theorem C72_row_bandwidth {N : Nat} {A : Mat R} {a : Spec.Mat R} (hA : A.Represents N a)
    (nonzero : R → Bool) {i : Nat} (h1 : 1 ≤ i) (hi : i ≤ N) :
    rowBandwidth nonzero A i = .ok (match A with
      | .dense _ => ((Finset.range N).filter (fun j => nonzero (elem1 a i (j + 1)) = true)).card
      | .ellpack A => ((Finset.range N).filter (fun j => A.Stored (i - 1) j)).card
      | .csr A => ((Finset.range N).filter (fun j => A.Stored (i - 1) j)).card) := by
  unfold Fortran.rowBandwidth
  rw [cIndex_ok h1, Res.bind_ok]
  cases A with
  | dense A => exact (C33_dense_bandwidth hA nonzero).1 _ (by omega)
  | ellpack A => exact C33_row_bandwidth hA (by omega)
  | csr A => exact (C33_csr_bandwidth hA).1 _ (by omega)

/-! ## Single elements -/

/-- **C72 (partial)** `bml_get_element(x, a, i, j)` of a dense matrix, and of an ELLPACK matrix of
single-precision real elements. -/
theorem C72_get_element_partial {N : Nat} {A : Mat R} {a : Spec.Mat R} (hA : A.Represents N a)
    (f : Kind) {i j : Nat} (h1 : 1 ≤ i) (hi : i ≤ N) (h2 : 1 ≤ j) (hj : j ≤ N)
    (hok : match A with | .dense _ => True | .ellpack _ => f = .singleReal | .csr _ => False) :
    getElement f f A i j = .ok (elem1 a i j) := by
  unfold Fortran.getElement
  rw [sub_one_cast h1, sub_one_cast h2]
  cases A with
  | dense A => exact C69_dense_partial hA f (by omega) (by omega)
  | ellpack A => subst hok; exact C69_ellpack_single_partial hA (by omega) (by omega)
  | csr A => exact hok.elim

/-- **C72 fails** for `bml_get_element` on ELLPACK: of the identity matrix made by the library it
reports, except in single precision, zeros on the diagonal and ones in the first column. -/
theorem C72_identity_wrong {N M : Nat} (hM : M > 0) {sc : Sched} (hsc : IsSched 0 N sc) :
    ∃ A : Ell R, Ell.identity N M sc = .ok A ∧ ∀ f : Kind, f ≠ .singleReal →
      ∀ i : Nat, 2 ≤ i → i ≤ N → getElement f f (.ellpack A) i i = .ok 0 ∧
        getElement f f (.ellpack A) i (1 : Nat) = .ok 1 := by
  obtain ⟨A, e, -, h⟩ := C69_identity_wrong (R := R) hM hsc
  refine ⟨A, e, fun f hf i h1 h2 => ?_⟩
  have := h f hf (i - 1) (by omega) (by omega)
  unfold Fortran.getElement
  rw [sub_one_cast (by omega)]
  exact this

/-- **C72 fails** for `bml_get_element` on CSR: it stops the program. -/
theorem C72_csr_get_element (f p : Kind) (A : Csr R) (i j : Int) :
    getElement f p (.csr A) i j = .error := rfl

/-- **C72** `bml_get_element` reports indices out of range. -/
theorem C72_get_element_range {N : Nat} {A : Mat R} {a : Spec.Mat R} (hA : A.Represents N a)
    (f p : Kind) {i j : Int} (h : i < 1 ∨ (N : Int) < i ∨ j < 1 ∨ (N : Int) < j) :
    getElement f p A i j = .error := by
  unfold Fortran.getElement
  cases A with
  | dense A => exact C69_dense_range hA f p _ _ (by omega)
  | ellpack A => exact C69_ellpack_range hA f p _ _ (by omega)
  | csr A => rfl

/-- **C72** `bml_set_element` of a dense matrix, read back by `bml_get_element`. -/
theorem C72_dense_set_get {N : Nat} {A : Dense R} {a : Spec.Mat R} (hA : A.Represents N a)
    (f : Kind) {i j : Nat} (h1 : 1 ≤ i) (hi : i ≤ N) (h2 : 1 ≤ j) (hj : j ≤ N) (v : R) :
    ∃ A', setElement f f (.dense A) i j v = .ok A' ∧ ∀ i' j' : Nat, 1 ≤ i' → i' ≤ N → 1 ≤ j' →
      j' ≤ N → getElement f f A' i' j' = .ok (if i' = i ∧ j' = j then v else elem1 a i' j') := by
  obtain ⟨B, e, h⟩ := Dense.exists_of_wp (Dense.wp_setElement (E := False)
    (Dense.represents_iff.1 hA) (i := i - 1) (j := j - 1) (by omega) (by omega) v)
  refine ⟨.dense B, ?_, fun i' j' g1 g2 g3 g4 => ?_⟩
  · unfold setElement
    rw [typed_same]
    simp only
    rw [sub_one_cast h1, sub_one_cast h2, e]
    rfl
  · rw [C72_get_element_partial (A := .dense B) h f g1 g2 g3 g4 trivial,
      set_elem1 a h1 h2 v g1 g3]

/-- **C72 fails** for indices out of range: `bml_set_element` does not check them.  Column 0 of row
`i` is the last element of row `i - 1`. -/
theorem C72_dense_column_zero {N : Nat} {A : Dense R} {a : Spec.Mat R} (hA : A.Represents N a)
    (f : Kind) {i : Nat} (h1 : 2 ≤ i) (hi : i ≤ N) (v : R) :
    setElement f f (.dense A) i 0 v = setElement f f (.dense A) ((i - 1 : Nat) : Int) N v := by
  unfold setElement
  rw [typed_same, typed_same]
  simp only
  unfold Dense.setElement
  have hd : A.N = N := hA.dim
  rw [hd]
  have : ((i : Int) - 1) * N + (0 - 1) = (((i - 1 : Nat) : Int) - 1) * N + ((N : Int) - 1) := by
    obtain ⟨k, rfl⟩ := Nat.exists_eq_add_of_le h1
    have : ((2 + k - 1 : Nat) : Int) = 1 + (k : Int) := by omega
    rw [this]
    push_cast
    ring
  rw [this]

/-- **C72 fails** for row 0: memory before the matrix is overwritten. -/
theorem C72_dense_row_zero {N : Nat} {A : Dense R} {a : Spec.Mat R} (hA : A.Represents N a)
    (f : Kind) {j : Nat} (hj : j ≤ N) (v : R) :
    setElement f f (.dense A) 0 j v = .ub := by
  unfold setElement
  rw [typed_same]
  simp only
  unfold Dense.setElement Dense.writeInt
  have hd : A.N = N := hA.dim
  rw [hd, if_pos (by omega)]
  rfl

/-! ## Reordering -/

/-- The values of the permutation count from zero. -/
structure PermFromZero (N : Nat) (perm : Arr Nat) : Prop where
  size : N ≤ perm.size
  lt : ∀ i, i < N → perm.get i < N
  inj : ∀ i j, i < N → j < N → perm.get i = perm.get j → i = j

/-- The values of the permutation count from one, as elsewhere in the Fortran interface. -/
structure PermFromOne (N : Nat) (perm : Arr Nat) : Prop where
  size : N ≤ perm.size
  pos : ∀ i, i < N → 1 ≤ perm.get i
  le : ∀ i, i < N → perm.get i ≤ N
  onto : ∀ k, 1 ≤ k → k ≤ N → ∃ i, i < N ∧ perm.get i = k

/-- **C72 (partial)** `bml_reorder(a, perm)` moves element `(i,j)` to `(perm(i)+1, perm(j)+1)` if the
values of `perm` count from zero. -/
theorem C72_reorder_partial {N : Nat} {A : Ell R} {a : Spec.Mat R} (hA : A.Represents N a)
    {perm : Arr Nat} (hp : PermFromZero N perm) {sc0 sc1 sc2 : Sched} (h0 : IsSched 0 N sc0)
    (h1 : IsSched 0 N sc1) (h2 : IsSched 0 N sc2) (jv : Nat → R) (ji : Nat → Nat) (f : Kind)
    (junk junk' : Nat → R) :
    ∃ A', reorder A perm sc0 sc1 sc2 jv ji = .ok A' ∧
      ∀ i, 1 ≤ i → i ≤ N → ∃ r,
        getRow f f junk junk' (.ellpack A') ((perm.get (i - 1) + 1 : Nat) : Int) = .ok r ∧
        ∀ j, 1 ≤ j → j ≤ N → at1 r (perm.get (j - 1) + 1) = elem1 a i j := by
  have hp' : Ell.IsPerm N perm := ⟨hp.size, hp.lt, hp.inj⟩
  have hR := Ell.represents_iff.1 hA
  obtain ⟨A', e, h⟩ := Res.wp_exists (Ell.wp_reorder (E := False) hR hp' h0 h1 h2 jv ji)
  have hex : ∀ r, ∃ i, r < N → i < N ∧ perm.get i = r := by
    intro r
    by_cases hr : r < N
    · obtain ⟨i, hi⟩ := hp'.surj hr; exact ⟨i, fun _ => hi⟩
    · exact ⟨0, fun h => absurd h hr⟩
  choose inv hinv using hex
  have hi' : ∀ i, i < N → inv (perm.get i) = i := fun i hi => by
    have h1 := hinv (perm.get i) (hp.lt i hi)
    exact hp.inj _ _ h1.1 hi h1.2
  have hrep := Ell.rep_reorder hR hp' h (a' := fun r c => a (inv r) (inv c)) (by
    intro i j hi hj
    rw [hi' i hi, hi' j hj])
  have hrep' : (Mat.ellpack A').Represents N (fun r c => a (inv r) (inv c)) :=
    Ell.represents_iff.2 hrep
  refine ⟨A', e, fun i g1 g2 => ?_⟩
  have hl := hp.lt (i - 1) (by omega)
  obtain ⟨r, e', hr, hg⟩ := C72_get_row hrep' f junk junk' (i := perm.get (i - 1) + 1) (by omega)
    (by omega)
  refine ⟨r, e', fun j g3 g4 => ?_⟩
  have hl' := hp.lt (j - 1) (by omega)
  rw [hg _ (by omega) (by omega)]
  unfold elem1
  rw [Nat.add_sub_cancel, Nat.add_sub_cancel]
  beta_reduce
  rw [hi' _ (by omega), hi' _ (by omega)]

theorem wlp_copyRange {α : Type} (src : Arr α) (s : Nat) (dst : Arr α) (d n : Nat) :
    (copyRange src s dst d n).wlp fun r => r.size = dst.size := by
  unfold copyRange
  refine wlp_loop (fun _ (r : Arr α) => r.size = dst.size) rfl fun k _ r hr => ?_
  rw [Res.wlp_bind]
  intro v _ r' hr'
  unfold Arr.write at hr'
  split at hr'
  · cases hr'; exact hr
  · cases hr'

theorem wlp_reorderRow (B : Ell R) (perm : Arr Nat) (i : Nat) (A : Ell R) :
    (Ell.reorderRow B perm i A).wlp fun A' => A'.nnz.size = A.nnz.size ∧
      perm.get i < A.nnz.size := by
  unfold Ell.reorderRow
  rw [Res.wlp_bind]
  intro pi hpi
  have hpi' : pi = perm.get i := by
    unfold Arr.read at hpi
    split at hpi
    · cases hpi; rfl
    · cases hpi
  rw [Res.wlp_bind]
  intro idx _
  rw [Res.wlp_bind]
  intro val _
  rw [Res.wlp_bind]
  intro n _
  rw [Res.wlp_bind]
  intro nnz hn
  unfold Arr.write at hn
  split at hn
  · rename_i hlt
    cases hn
    exact Res.wlp_ok.2 ⟨rfl, hpi' ▸ hlt⟩
  · cases hn

/-- **C72 fails** for `bml_reorder`: with a permutation that counts from one it never comes back with
a matrix; it writes beyond the matrix. -/
theorem C72_reorder_from_one {N : Nat} {A : Ell R} {a : Spec.Mat R} (hA : A.Represents N a)
    (hN : 0 < N) {perm : Arr Nat} (hp : PermFromOne N perm) {sc0 sc1 sc2 : Sched}
    (h1 : IsSched 0 N sc1) (jv : Nat → R) (ji : Nat → Nat) (A' : Ell R) :
    reorder A perm sc0 sc1 sc2 jv ji ≠ .ok A' := by
  have hR := Ell.represents_iff.1 hA
  have hsz : A.nnz.size = N := by rw [hR.shape.nnz_size, hR.dim]
  obtain ⟨i0, hi0, he0⟩ := hp.onto N hN le_rfl
  have hmem : ∃ t, (t, i0) ∈ sc1 := by
    have := (h1.mem i0).2 ⟨Nat.zero_le _, hi0⟩
    simpa using this
  have key : ∀ (sc : Sched) (B X : Ell R), X.nnz.size = N → (∃ t, (t, i0) ∈ sc) →
      (forList sc X fun ti A => Ell.reorderRow B perm ti.2 A).wlp fun _ => False := by
    intro sc B
    induction sc with
    | nil => rintro X _ ⟨t, ht⟩; cases ht
    | cons x sc ih =>
      rintro X hX ⟨t, ht⟩
      unfold forList
      rw [Res.wlp_bind]
      refine Res.wlp_mono (wlp_reorderRow B perm x.2 X) fun Y hY => ?_
      rcases List.mem_cons.1 ht with rfl | ht
      · exact absurd hY.2 (by rw [hX]; simp only; omega)
      · exact ih Y (hY.1.trans hX) ⟨t, ht⟩
  have : (reorder A perm sc0 sc1 sc2 jv ji).wlp fun _ => False := by
    unfold Fortran.reorder Ell.reorder
    rw [Res.wlp_bind]
    intro B _
    rw [Res.wlp_bind]
    exact Res.wlp_mono (key sc1 B A hsz hmem) fun _ h => h.elim
  exact fun e => this A' e

/-! ## The hypotheses are met -/

/-- Row 2 (from one) of `exA` stores three of four possible elements. -/
example : ∃ A', setElement .doubleReal .doubleReal (.ellpack exA) (2 : Nat) (3 : Nat) 9 = .ok A' ∧
    ∀ i' : Nat, 1 ≤ i' → i' ≤ 3 → ∃ r, getRow .doubleReal .doubleReal (fun _ => 0) (fun _ => 0) A' i' =
      .ok r ∧ r.size = 3 ∧ ∀ j', 1 ≤ j' → j' ≤ 3 → at1 r j' =
        if i' = 2 ∧ j' = 3 then 9 else elem1 exa i' j' :=
  C72_set_element_partial (A := .ellpack exA) (i := 2) (j := 3) exA_rep .doubleReal _ _
    (by decide) (by decide) (by decide) (by decide) 9 (.inr ⟨by decide, .inr (by decide)⟩)

example : ∃ A', setElementNew .doubleReal .doubleReal (.ellpack exA) (1 : Nat) (3 : Nat) 9 = .ok A' ∧
    ∀ i' : Nat, 1 ≤ i' → i' ≤ 3 → ∃ r, getRow .doubleReal .doubleReal (fun _ => 0) (fun _ => 0) A' i' =
      .ok r ∧ r.size = 3 ∧ ∀ j', 1 ≤ j' → j' ≤ 3 → at1 r j' =
        if i' = 1 ∧ j' = 3 then 9 else elem1 exa i' j' :=
  C72_set_element_new (A := .ellpack exA) (i := 1) (j := 3) exA_rep .doubleReal _ _
    (by decide) (by decide) (by decide) (by decide) 9 ⟨by decide, by decide⟩

example : ∃ A' r, setRow .singleReal .singleReal (fun x : Int => decide (x ≠ 0)) (fun _ => 0)
      (.csr exC) (2 : Nat) ⟨2, fun j => (j : Int) * 7⟩ none = .ok A' ∧
    getRow .singleReal .singleReal (fun _ => 0) (fun _ => 0) A' (2 : Nat) = .ok r ∧ r.size = 2 ∧
      ∀ j, 1 ≤ j → j ≤ 2 → at1 r j = at1 (⟨2, fun j => (j : Int) * 7⟩ : Arr Int) j :=
  C72_set_get_row (A := .csr exC) exC_rep .singleReal (fun x => by simp) _ _ _ (by decide)
    (by decide) (by decide) trivial

example : PermFromOne 3 ⟨3, fun i => (i + 1) % 3 + 1⟩ :=
  ⟨by decide, fun _ _ => by simp only; omega, fun _ _ => by simp only; omega, fun k h1 h2 => by
    rcases (by omega : k = 1 ∨ k = 2 ∨ k = 3) with rfl | rfl | rfl
    · exact ⟨2, by decide, rfl⟩
    · exact ⟨0, by decide, rfl⟩
    · exact ⟨1, by decide, rfl⟩⟩

example : PermFromZero 3 ⟨3, fun i => (i + 1) % 3⟩ :=
  ⟨by decide, fun i _ => Nat.mod_lt _ (by decide), fun i j hi hj he => by simp only at he; omega⟩

end Bml.Props
