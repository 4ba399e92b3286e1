import Verif.Csr.OfRows
import Verif.Props.Dense2

/-!
# Property theorems: the CSR format (1)

`A.Represents N a` says that `A` is a well-formed `N × N` matrix and that `bml_get_element` returns
`a i j` for all `i, j < N`.  `A.Stored i j`: row `i` holds an entry for column `j`.
-/

namespace Bml.Props

open Bml

variable {R : Type} [CommRing R]

/-- `[[1,2],[3,0]]` with the second row's zero not stored and the first row in reverse order. -/
def exC : Csr Int := Csr.ofRows 2 2 fun i => if i = 0 then [(1, 2), (0, 1)] else [(0, 3)]

def exCm : Spec.Mat Int := fun i j => SRow.den (if i = 0 then [(1, 2), (0, 1)] else [(0, 3)]) j

theorem exC_rep : exC.Represents 2 exCm :=
  Csr.ofRows_rep (rows := fun i => if i = 0 then [(1, 2), (0, 1)] else [(0, 3)]) (by decide)

/-! ## C02, C34 -/

/-- **C02.**  `bml_set_element` on a CSR matrix, whatever the row already holds and however full it
is: the call succeeds (no access out of bounds), the value is read back, every other element is
unchanged. -/
theorem C02_set_element {N : Nat} {A : Csr R} {a : Spec.Mat R} (hA : A.Represents N a) {i j : Nat}
    (hi : i < N) (hj : j < N) (v : R) :
    ∃ A', A.setElement i j v = .ok A' ∧ A'.WF ∧ A'.N = N ∧ A'.M = A.M ∧
      A'.getElement i j = .ok v ∧
      ∀ i' j' : Nat, i' < N → j' < N → (i', j') ≠ (i, j) →
        A'.getElement i' j' = A.getElement i' j' := by
  obtain ⟨A', e, h0, h⟩ := Csr.exists_of_wpM (Csr.wp_setElement (Csr.represents_iff.1 hA) hi hj v)
  refine ⟨A', e, h.wf, h.dim, h0, ?_, fun i' j' hi' hj' hne => ?_⟩
  · rw [h.get i j hi hj]; simp [Spec.set]
  · rw [h.get i' j' hi' hj', hA.get i' j' hi' hj', Spec.set, if_neg]
    rintro ⟨rfl, rfl⟩
    exact hne rfl

/-- **C02**, `bml_set_element_new`, for a position that is not stored yet. -/
theorem C02_set_element_new {N : Nat} {A : Csr R} {a : Spec.Mat R} (hA : A.Represents N a)
    {i j : Nat} (hi : i < N) (hj : j < N) (hn : ¬ A.Stored i j) (v : R) :
    ∃ A', A.setElementNew i j v = .ok A' ∧ A'.WF ∧ A'.N = N ∧ A'.M = A.M ∧
      A'.getElement i j = .ok v ∧
      ∀ i' j' : Nat, i' < N → j' < N → (i', j') ≠ (i, j) →
        A'.getElement i' j' = A.getElement i' j' := by
  obtain ⟨A', e, h0, h⟩ :=
    Csr.exists_of_wpM (Csr.wp_setElementNew (Csr.represents_iff.1 hA) hi hj hn v)
  refine ⟨A', e, h.wf, h.dim, h0, ?_, fun i' j' hi' hj' hne => ?_⟩
  · rw [h.get i j hi hj]; simp [Spec.set]
  · rw [h.get i' j' hi' hj', hA.get i' j' hi' hj', Spec.set, if_neg]
    rintro ⟨rfl, rfl⟩
    exact hne rfl

/-- One write: with `bml_set_element_new` (`true`) or `bml_set_element`. -/
structure Write (R : Type) where
  fresh : Bool
  i : Nat
  j : Nat
  v : R

/-- The call. -/
def Write.run (w : Write R) (A : Csr R) : Res (Csr R) :=
  if w.fresh then A.setElementNew w.i w.j w.v else A.setElement w.i w.j w.v

/-- A history may be run on a matrix with the stored positions `S`: all indices are in range, and
`bml_set_element_new` is only used for positions neither stored at the start nor written before. -/
def Allowed (N : Nat) (S : Nat → Nat → Prop) : List (Write R) → Prop
  | [] => True
  | w :: ws => w.i < N ∧ w.j < N ∧ (w.fresh = true → ¬ S w.i w.j) ∧
      Allowed N (fun i j => S i j ∨ (i = w.i ∧ j = w.j)) ws

theorem Allowed.mono {N : Nat} {S S' : Nat → Nat → Prop} (h : ∀ i j, S' i j ↔ S i j) :
    ∀ {ws : List (Write R)}, Allowed N S ws → Allowed N S' ws := by
  have : S' = S := by funext i j; exact propext (h i j)
  subst this
  exact fun {_} h => h

/-- **C02**, histories: any sequence of writes with the two functions, of any length (so with any
number of reallocations of any row), succeeds and leaves in every element the value of the last
write to it. -/
theorem C02_history {N : Nat} (ws : List (Write R)) : ∀ {A : Csr R} {a : Spec.Mat R},
    A.Represents N a → Allowed N A.Stored ws →
    ∃ A', forList ws A (fun w A => w.run A) = .ok A' ∧
      A'.Represents N (ws.foldl (fun a w => Spec.set a w.i w.j w.v) a) := by
  induction ws with
  | nil => intro A a hA _; exact ⟨A, rfl, hA⟩
  | cons w ws ih =>
    intro A a hA hw
    obtain ⟨h1, h2, h3, h4⟩ := hw
    have hR := Csr.represents_iff.1 hA
    have : ∃ A', w.run A = .ok A' ∧ A'.Represents N (Spec.set a w.i w.j w.v) ∧
        ∀ i' j', A'.Stored i' j' ↔ A.Stored i' j' ∨ (i' = w.i ∧ j' = w.j) := by
      unfold Write.run
      cases hf : w.fresh
      · obtain ⟨A', e, ⟨-, h⟩, h'⟩ := Res.wp_exists (Res.wp_and
          (Csr.wp_setElement (E := False) hR h1 h2 w.v) (Csr.stored_setElement hR h1 w.v))
        exact ⟨A', e, Csr.represents_iff.2 h, h'⟩
      · obtain ⟨A', e, ⟨-, h⟩, h'⟩ := Res.wp_exists (Res.wp_and
          (Csr.wp_setElementNew (E := False) hR h1 h2 (h3 hf) w.v)
          (Csr.stored_setElementNew hR h1 w.v))
        exact ⟨A', e, Csr.represents_iff.2 h, h'⟩
    obtain ⟨A', e, h, h'⟩ := this
    obtain ⟨A'', e', h''⟩ := ih h (h4.mono h')
    exact ⟨A'', by rw [forList_cons, e, Res.bind_ok]; exact e', h''⟩

/-- A row of the new matrix has room for ten entries; twelve columns are written, and the row
grows. -/
example : ∃ A', forList ((List.range 12).map fun j => (⟨true, 0, j, (j : Int)⟩ : Write Int))
    (Csr.newZero 12 4) (fun w A => w.run A) = .ok A' ∧ A'.getElement 0 11 = .ok 11 ∧
    A'.getElement 0 0 = .ok 0 := by
  obtain ⟨A', e, h⟩ := C02_history (N := 12)
    ((List.range 12).map fun j => (⟨true, 0, j, (j : Int)⟩ : Write Int))
    (A := Csr.newZero 12 4) (Csr.represents_iff.2 (Csr.rep_newZero 12 4))
    (by
      have hS : ∀ i j, (Csr.newZero 12 4 : Csr Int).Stored i j ↔ False := by
        intro i j
        simp [Csr.Stored, Csr.newZero, CsrRow.zero]
      refine Allowed.mono hS ?_
      simp [Allowed, List.range_succ])
  exact ⟨A', e, (h.get 0 11 (by omega) (by omega)).trans (by decide),
    (h.get 0 0 (by omega) (by omega)).trans (by decide)⟩

example : ∃ A', exC.setElement 1 0 7 = .ok A' ∧ A'.getElement 1 0 = .ok 7 ∧
    A'.getElement 0 1 = exC.getElement 0 1 := by
  obtain ⟨A', e, -, -, -, h, h'⟩ := C02_set_element exC_rep (i := 1) (j := 0) (by omega) (by omega) 7
  exact ⟨A', e, h, h' 0 1 (by omega) (by omega) (by decide)⟩

/-- Why the condition of `C02_set_element_new` is needed: the function does not look for an
existing entry, and the old value stays. -/
theorem C02_set_element_new_stored :
    ∃ A', exC.setElementNew 1 0 7 = .ok A' ∧ A'.getElement 1 0 = .ok 3 := ⟨_, rfl, rfl⟩

/-- **C34**, CSR: a row index out of range and a negative column index are errors.  A column index
`≥ N` is *not*: see `C34_csr_silent_column`. -/
theorem C34_csr_partial {N : Nat} {A : Csr R} {a : Spec.Mat R} (hA : A.Represents N a) (i j : Int)
    (h : i < 0 ∨ (N : Int) ≤ i ∨ j < 0) : A.getElement i j = .error := by
  obtain ⟨h1, h2, -⟩ := Csr.getElement_out (Csr.represents_iff.1 hA) i j
  by_cases hr : i < 0 ∨ (N : Int) ≤ i
  · exact h1 hr
  · exact h2 (by omega) (by omega) (by omega)

/-- **C34 fails for CSR**: a column index `≥ N` returns zero, for every matrix. -/
theorem C34_csr_silent_column {N : Nat} {A : Csr R} {a : Spec.Mat R} (hA : A.Represents N a)
    (i j : Int) (h0 : 0 ≤ i) (h1 : i < N) (hj : (N : Int) ≤ j) : A.getElement i j = .ok 0 :=
  (Csr.getElement_out (Csr.represents_iff.1 hA) i j).2.2 h0 h1 hj

example : exC.getElement 0 (-1) = .error ∧ exC.getElement 2 0 = .error ∧
    exC.getElement 0 5 = .ok 0 :=
  ⟨C34_csr_partial exC_rep _ _ (by decide), C34_csr_partial exC_rep _ _ (by decide),
    C34_csr_silent_column exC_rep _ _ (by decide) (by decide) (by decide)⟩

/-! ## C04, C05 -/

/-- **C04**, CSR, without a condition on the number of entries. -/
theorem C04_csr_set_get_row {N : Nat} {A : Csr R} {a : Spec.Mat R}
    (hA : A.Represents N a) {i : Nat} (hi : i < N) {row : Arr R} (hrow : N ≤ row.size)
    (big : R → Bool) (junk : Nat → Nat) :
    ∃ A', A.setRow i row big junk = .ok A' ∧
      A'.Represents N (fun i' j => if i' = i then Spec.keep big (row.get j) else a i' j) ∧
      ∃ r, A'.getRow i = .ok r ∧ r.size = N ∧ ∀ j, j < N → r.get j = Spec.keep big (row.get j) := by
  obtain ⟨A', e, -, h⟩ :=
    Csr.exists_of_wpM (Csr.wp_setRow (Csr.represents_iff.1 hA) hi hrow big junk)
  obtain ⟨r, e', h1, h2⟩ := Res.wp_exists (Csr.wp_getRow (E := False) (Csr.represents_iff.1 h) hi)
  exact ⟨A', e, h, r, e', h1, fun j hj => by rw [h2 j hj]; simp⟩

theorem C04_csr_get_row {N : Nat} {A : Csr R} {a : Spec.Mat R} (hA : A.Represents N a)
    {i : Nat} (hi : i < N) :
    ∃ r, A.getRow i = .ok r ∧ r.size = N ∧ ∀ j, j < N → r.get j = a i j :=
  Res.wp_exists (Csr.wp_getRow (E := False) (Csr.represents_iff.1 hA) hi)

/-- **C04**, sparse rows: what `bml_get_sparse_row` returns and `bml_set_sparse_row` stores.  Handing
the columns and values obtained from row `i` of one matrix to row `i'` of another one copies the row
(thresholded). -/
theorem C04_csr_sparse_row {N : Nat} {A B : Csr R} {a b : Spec.Mat R} (hA : A.Represents N a)
    (hB : B.Represents N b) {i i' : Nat} (hi : i < N) (hi' : i' < N) (big : R → Bool)
    (jv : Nat → R) (ji : Nat → Nat) :
    ∃ st B', A.getSparseRow i jv ji = .ok st ∧ st.1.size = st.2.2 ∧ st.2.1.size = st.2.2 ∧
      B.setSparseRow i' st.2.2 st.1 st.2.1 big = .ok B' ∧
      B'.Represents N (fun k j => if k = i' then Spec.keep big (a i j) else b k j) := by
  have hRA := Csr.represents_iff.1 hA
  obtain ⟨⟨cols, vals, n⟩, e, h1, h2, h3⟩ :=
    Res.wp_exists (Csr.wp_getSparseRow (E := False) hRA hi jv ji)
  simp only at h1 h2 h3
  have hg := hRA.good hi
  rw [← h3] at hg
  have hlt : ∀ k, k < n → cols.get k < N := fun k hk =>
    hg.2 (cols.get k, vals.get k) (by
      unfold CsrRow.pre
      exact List.mem_map.2 ⟨k, List.mem_range.2 hk, rfl⟩)
  have hinj : ∀ k k', k < n → k' < n → cols.get k = cols.get k' → k = k' := by
    have hn := hg.1
    unfold CsrRow.pre at hn
    rw [List.map_map] at hn
    intro k k' hk hk' hc
    exact List.inj_on_of_nodup_map hn (List.mem_range.2 hk) (List.mem_range.2 hk') hc
  obtain ⟨B', e', -, h⟩ := Csr.exists_of_wpM (Csr.wp_setSparseRow (E := False)
    (Csr.represents_iff.1 hB) hi' (count := n) (cols := cols) (vals := vals) (by omega) (by omega)
    big (fun k hk _ => hlt k hk) (fun k k' hk hk' _ _ hc => hinj k k' hk hk' hc))
  refine ⟨(cols, vals, n), B', e, h1, h2, e', h.congr fun k j hk hj => ?_⟩
  simp only
  by_cases hki : k = i'
  · rw [if_pos hki, if_pos hki, SRow.den_filter_keep hg.1 big, h3, hRA.den hi hj]
  · rw [if_neg hki, if_neg hki]

/-- **C05**, CSR. -/
theorem C05_csr_set_get_diagonal {N : Nat} {A : Csr R} {a : Spec.Mat R}
    (hA : A.Represents N a) {d : Arr R} (hd : N ≤ d.size) (big : R → Bool) :
    ∃ A', A.setDiagonal d big = .ok A' ∧
      A'.Represents N (fun i j => if i = j then Spec.keep big (d.get i) else a i j) ∧
      ∃ r, A'.getDiagonal = .ok r ∧ r.size = N ∧
        ∀ j, j < N → r.get j = Spec.keep big (d.get j) := by
  obtain ⟨A', e, -, h⟩ := Csr.exists_of_wpM (Csr.wp_setDiagonal (Csr.represents_iff.1 hA) hd big)
  obtain ⟨r, e', h1, h2⟩ := Res.wp_exists (Csr.wp_getDiagonal (E := False) (Csr.represents_iff.1 h))
  exact ⟨A', e, h, r, e', h1, fun j hj => by rw [h2 j hj]; simp⟩

theorem C05_csr_get_diagonal {N : Nat} {A : Csr R} {a : Spec.Mat R} (hA : A.Represents N a) :
    ∃ r, A.getDiagonal = .ok r ∧ r.size = N ∧ ∀ j, j < N → r.get j = a j j :=
  Res.wp_exists (Csr.wp_getDiagonal (E := False) (Csr.represents_iff.1 hA))

example : ∃ A', exC.setRow 1 ⟨2, fun j => (j : Int) + 5⟩ (fun x => decide (5 < x)) (fun _ => 0) =
    .ok A' ∧ A'.getElement 1 0 = .ok 0 ∧ A'.getElement 1 1 = .ok 6 ∧ A'.getElement 0 1 = .ok 2 := by
  obtain ⟨A', e, h, -⟩ := C04_csr_set_get_row exC_rep (i := 1) (by omega)
    (row := ⟨2, fun j => (j : Int) + 5⟩) (le_refl 2) (fun x => decide (5 < x)) (fun _ => 0)
  exact ⟨A', e, (h.get 1 0 (by omega) (by omega)).trans (by decide),
    (h.get 1 1 (by omega) (by omega)).trans (by decide),
    (h.get 0 1 (by omega) (by omega)).trans (by decide)⟩

example : ∃ A', exC.setDiagonal ⟨2, fun j => (j : Int) + 5⟩ (fun x => decide (5 < x)) = .ok A' ∧
    A'.getElement 0 0 = .ok 0 ∧ A'.getElement 1 1 = .ok 6 ∧ A'.getElement 0 1 = .ok 2 := by
  obtain ⟨A', e, h, -⟩ := C05_csr_set_get_diagonal exC_rep (d := ⟨2, fun j => (j : Int) + 5⟩)
    (le_refl 2) (fun x => decide (5 < x))
  exact ⟨A', e, (h.get 0 0 (by omega) (by omega)).trans (by decide),
    (h.get 1 1 (by omega) (by omega)).trans (by decide),
    (h.get 0 1 (by omega) (by omega)).trans (by decide)⟩

example : ∃ st B', exC.getSparseRow 0 (fun _ => 0) (fun _ => 0) = .ok st ∧
    exC.setSparseRow 1 st.2.2 st.1 st.2.1 (fun x => decide (x ≠ 1)) = .ok B' ∧
    B'.getElement 1 1 = .ok 2 ∧ B'.getElement 1 0 = .ok 0 := by
  obtain ⟨st, B', e, -, -, e', h⟩ := C04_csr_sparse_row exC_rep exC_rep (i := 0) (i' := 1)
    (by omega) (by omega) (fun x => decide (x ≠ 1)) (fun _ => 0) (fun _ => 0)
  exact ⟨st, B', e, e', (h.get 1 1 (by omega) (by omega)).trans (by decide),
    (h.get 1 0 (by omega) (by omega)).trans (by decide)⟩

/-! ## C06, C07, C29, C32, C48 -/

/-- **C06**, CSR: import and export in any two orders, for every schedule, without a condition on
the number of entries per row. -/
theorem C06_csr_round_trip {N : Nat} (o o' : Order) {D : Arr R} (hD : N * N ≤ D.size)
    (big : R → Bool) (M : Nat) {sc sc' : Sched} (hsc : IsSched 0 N sc) (hsc' : IsSched 0 N sc') :
    ∃ A D', Csr.importDense o N D big M sc = .ok A ∧
      A.Represents N (fun i j => Spec.keep big (D.get (o.addr i j N))) ∧
      A.exportDense o' sc' = .ok D' ∧ D'.size = N * N ∧
      ∀ i j, i < N → j < N →
        D'.get (o'.addr i j N) = Spec.keep big (D.get (o.addr i j N)) := by
  obtain ⟨A, e, -, h⟩ := Csr.exists_of_wpM (Csr.wp_importDense (order := o) (M := M) hD big hsc)
  obtain ⟨D', e', h1, h2⟩ :=
    Res.wp_exists (Csr.wp_exportDense (E := False) (Csr.represents_iff.1 h) o' hsc')
  exact ⟨A, D', e, h, e', h1, h2⟩

example : ∃ A D', Csr.importDense .colMajor 2 (⟨4, fun k => (k : Int)⟩) (fun x => decide (x ≠ 0)) 1
      [(0, 1), (0, 0)] = .ok A ∧
    A.exportDense .rowMajor (seqSched 0 2) = .ok D' ∧ D'.get 1 = 2 := by
  obtain ⟨A, D', e, -, e', -, h⟩ := C06_csr_round_trip .colMajor .rowMajor (N := 2)
    (D := ⟨4, fun k => (k : Int)⟩) (by decide) (fun x => decide (x ≠ 0)) 1 (sc := [(0, 1), (0, 0)])
    (List.Perm.swap 0 1 []) (isSched_seq 0 2)
  exact ⟨A, D', e, e', (h 0 1 (by omega) (by omega)).trans (by decide)⟩

/-- **C07**, CSR: `bml_copy_new`. -/
theorem C07_csr_copy_new {N : Nat} {A : Csr R} {a : Spec.Mat R} (hA : A.Represents N a)
    {sc : Sched} (hsc : IsSched 0 N sc) (jd : Nat → CsrRow R) (jv : Nat → Nat → R)
    (ji : Nat → Nat → Nat) :
    ∃ B, A.copyNew sc jd jv ji = .ok B ∧ B.M = A.M ∧ B.Represents N a := by
  have hR := Csr.represents_iff.1 hA
  exact Csr.exists_of_wpM (Res.wp_mono (Csr.wp_copyNew hR hsc jd jv ji)
    fun B h => ⟨h.1, h.2.rep hR⟩)

/-- **C07**, CSR: `bml_copy` gives the matrix when every row of `A` fits into the row storage of
`B`, and otherwise may only report an error. -/
theorem C07_csr_copy_partial {N : Nat} {A B : Csr R} {a b : Spec.Mat R} (hA : A.Represents N a)
    (hB : B.Represents N b) {sc : Sched} (hsc : IsSched 0 N sc) :
    (∀ r, A.copyInto B sc = r → r = .error ∨ ∃ B', r = .ok B' ∧ B'.Represents N a) ∧
    ((∀ i, i < N → (A.data.get i).nnz ≤ (B.data.get i).alloc) →
      ∃ B', A.copyInto B sc = .ok B' ∧ B'.Represents N a) := by
  have hR := Csr.represents_iff.1 hA
  have h := Csr.wp_copyInto hR (Csr.represents_iff.1 hB) hsc
  constructor
  · rintro r rfl
    generalize A.copyInto B sc = r at h
    cases r with
    | ok B' => exact Or.inr ⟨B', rfl, Csr.represents_iff.2 (h.2.rep hR)⟩
    | error => exact Or.inl rfl
    | ub => exact h.elim
  · intro hfit
    obtain ⟨B', e, h'⟩ := Res.wp_exists (Res.wp_mono' h (E' := False) (fun ⟨i, hi, hl⟩ => by
      have := hfit i hi
      unfold Csr.row at hl
      rw [CsrRow.list_length] at hl
      omega) fun _ h => h)
    exact ⟨B', e, Csr.represents_iff.2 (h'.2.rep hR)⟩

omit [CommRing R] in
/-- **C07**: different sizes are reported. -/
theorem C07_csr_copy_size {A B : Csr R} (h : A.N ≠ B.N) (sc : Sched) :
    A.copyInto B sc = .error := if_neg h

/-- **C07 fails for `bml_copy` on CSR matrices when the target was made with less room**: a row of
eleven entries does not go into a new matrix with `M = 2` (row space 10), although CSR rows grow in
every other function. -/
theorem C07_csr_copy_witness :
    (Csr.ofRows 11 11 fun _ => (List.range 11).map fun j => (j, (1 : Int))).copyInto
      (Csr.newZero 11 2) (seqSched 0 11) = .error := rfl

example : ∃ B', exC.copyInto (Csr.newZero 2 1) [(0, 1), (1, 0)] = .ok B' ∧
    B'.getElement 0 1 = .ok 2 := by
  obtain ⟨B', e, h⟩ := (C07_csr_copy_partial exC_rep
    (Csr.represents_iff.2 (Csr.rep_newZero 2 1)) (sc := [(0, 1), (1, 0)])
    (List.Perm.swap 0 1 [])).2 (by decide)
  exact ⟨B', e, (h.get 0 1 (by omega) (by omega)).trans (by decide)⟩

/-- **C29**, conversion to CSR from any format whose `bml_get_row` returns the rows of `a`; `big0`
is the test for magnitude above zero.  There is no condition on the row width. -/
theorem C29_convert_csr {N M : Nat} {a : Spec.Mat R} {getRow : Nat → Res (Arr R)}
    (hget : ∀ i, i < N → ∃ row, getRow i = .ok row ∧ row.size = N ∧
      ∀ j, j < N → row.get j = a i j) (big0 : R → Bool)
    (h0 : ∀ x, big0 x = false → x = 0) (junk : Nat → Nat) :
    ∃ B, Csr.convertFrom getRow N M big0 junk = .ok B ∧ B.M = M ∧ B.Represents N a := by
  obtain ⟨B, e, hM, h⟩ := Csr.exists_of_wpM (Csr.wp_convertFrom (N := N) (M := M) (a := a)
    (getRow := getRow) (fun i hi => by
      obtain ⟨row, e, h⟩ := hget i hi
      rw [e]; exact h) big0 junk)
  refine ⟨B, e, hM, h.congr fun i j _ _ => ?_⟩
  simp only [Spec.keep]
  by_cases hb : big0 (a i j) = true
  · rw [if_pos hb]
  · rw [if_neg hb, h0 (a i j) (by simpa using hb)]

/-- **C29**: dense to CSR and back. -/
theorem C29_dense_csr_round_trip {N M : Nat} {A : Dense R} {a : Spec.Mat R}
    (hA : A.Represents N a) (big0 : R → Bool) (h0 : ∀ x, big0 x = false → x = 0)
    (jr : Nat → R) (junk : Nat → Nat) :
    ∃ B A', Csr.convertFrom (fun i => A.getRow i jr) N M big0 junk = .ok B ∧ B.Represents N a ∧
      Dense.convertFrom (fun i j => B.getElement i j) N = .ok A' ∧ A'.Represents N a := by
  obtain ⟨B, e, -, h⟩ := C29_convert_csr (M := M) (a := a)
    (fun i hi => C04_dense_get_row hA hi jr) big0 h0 junk
  obtain ⟨A', e', h'⟩ := C29_convert_dense (N := N) (get := fun i j => B.getElement i j) (a := a)
    fun i j hi hj => h.get i j hi hj
  exact ⟨B, A', e, h, e', h'⟩

/-- **C29**: ELLPACK to CSR, and CSR to ELLPACK when the rows can hold `N` entries. -/
theorem C29_csr_ellpack_round_trip_partial {N M M' : Nat} (hM : M > 0) (hNM : N ≤ M) {A : Csr R}
    {a : Spec.Mat R} (hA : A.Represents N a) (big0 : R → Bool) (h0 : ∀ x, big0 x = false → x = 0)
    (junk : Nat → Nat) :
    ∃ B, Ell.convertFrom (fun i j => A.getElement i j) N M = .ok B ∧ B.Represents N a ∧
      ∃ A', Csr.convertFrom (fun i => B.getRow i) N M' big0 junk = .ok A' ∧ A'.Represents N a := by
  obtain ⟨B, e, -, h⟩ := C29_convert_partial hM hNM (fun i j hi hj => hA.get i j hi hj)
  obtain ⟨A', e', -, h'⟩ := C29_convert_csr (M := M') (a := a) (getRow := fun i => B.getRow i)
    (fun i hi => C04_get_row h hi) big0 h0 junk
  exact ⟨B, e, h, A', e', h'⟩

example : ∃ B A', Csr.convertFrom (fun i => (Dense.ofMat 2 exD).getRow i (fun _ => 0)) 2 1
      (fun x => decide (x ≠ 0)) (fun _ => 0) = .ok B ∧
    Dense.convertFrom (fun i j => B.getElement i j) 2 = .ok A' ∧ A'.Represents 2 exD := by
  obtain ⟨B, A', e, -, e', h⟩ := C29_dense_csr_round_trip (M := 1) (Dense.ofMat_rep 2 exD)
    (fun x => decide (x ≠ 0)) (by simp) (fun _ => 0) (fun _ => 0)
  exact ⟨B, A', e, e', h⟩

/-- **C32**, CSR constructors. -/
theorem C32_csr_zero (N M : Nat) : (Csr.newZero N M : Csr R).Represents N Spec.zero :=
  Csr.represents_iff.2 (Csr.rep_newZero N M)

theorem C32_csr_identity {N M : Nat} {sc : Sched} (hsc : IsSched 0 N sc) :
    ∃ A : Csr R, Csr.identity N M sc = .ok A ∧ A.M = M ∧ A.Represents N Spec.one :=
  Csr.exists_of_wpM (Csr.wp_identity hsc)

/-- Element `(i,j)` of a banded matrix is a random value inside of the band
`i - M/2 ≤ j < i - M/2 + M` and zero outside.  Rows whose band would pass the last column fill the
row from the beginning of the band. -/
theorem C32_csr_banded {N M : Nat} (rv : Nat → Nat → R) {sc : Sched} (hsc : IsSched 0 N sc) :
    ∃ A, Csr.banded N M rv sc = .ok A ∧ A.M = M ∧ A.Represents N (fun i j =>
      if i ≤ j + M / 2 ∧ j + M / 2 < i + M then rv i (j - (i - M / 2)) else 0) := by
  obtain ⟨A, e, h1, h⟩ := Csr.exists_of_wpM (Csr.wp_banded (M := M) (rv := rv) hsc)
  refine ⟨A, e, h1, h.congr fun i j hi hj => ?_⟩
  simp only
  by_cases hb : i ≤ j + M / 2 ∧ j + M / 2 < i + M
  · rw [if_pos hb, if_pos]
    refine ⟨by omega, ?_⟩
    split <;> omega
  · rw [if_neg hb, if_neg]
    rintro ⟨g1, g2⟩
    apply hb
    split at g2 <;> omega

/-- **C32**, random matrices, for every sequence of random numbers: the diagonal is stored, no
column twice (`Represents` includes well-formedness), at most `M` entries per row. -/
theorem C32_csr_random {N M : Nat} (hM : 0 < M) (rnd : Nat → Nat) (toR : Nat → R) :
    ∃ (A : Csr R) (a : Spec.Mat R), Csr.random N M rnd toR = .ok A ∧ A.M = M ∧ A.Represents N a ∧
      ∀ i, i < N → A.Stored i i ∧ (A.data.get i).nnz ≤ M := by
  obtain ⟨A, e, h1, h2, h3⟩ := Res.wp_exists (Csr.wp_random (E := False) (N := N) hM rnd toR)
  refine ⟨A, _, e, h1, Csr.represents_iff.2 h2, fun i hi => ⟨Csr.stored_iff.2 (h3 i hi).1, ?_⟩⟩
  have := (h3 i hi).2
  unfold Csr.row at this
  rwa [CsrRow.list_length] at this

example : ∃ A : Csr Int, Csr.banded 3 2 (fun _ _ => 7) [(0, 2), (1, 0), (0, 1)] = .ok A ∧
    A.getElement 1 0 = .ok 7 ∧ A.getElement 0 1 = .ok 0 := by
  obtain ⟨A, e, -, h⟩ := C32_csr_banded (N := 3) (M := 2) (fun _ _ => (7 : Int))
    (sc := [(0, 2), (1, 0), (0, 1)]) (by unfold IsSched; decide)
  exact ⟨A, e, h.get 1 0 (by omega) (by omega), h.get 0 1 (by omega) (by omega)⟩

example : ∃ (A : Csr Int) (a : Spec.Mat Int), Csr.random 3 2 (fun k => k) (fun k => (k : Int)) =
    .ok A ∧ A.M = 2 ∧ A.Represents 3 a ∧ ∀ i, i < 3 → A.Stored i i ∧ (A.data.get i).nnz ≤ 2 :=
  C32_csr_random (by omega) _ _

/-- **C48**, CSR. -/
theorem C48_csr_clear {N : Nat} {A : Csr R} {a : Spec.Mat R} (hA : A.Represents N a) {sc : Sched}
    (hsc : IsSched 0 N sc) :
    ∃ A', A.clear sc = .ok A' ∧ A'.M = A.M ∧ A'.Represents N Spec.zero ∧
      ∀ i j, i < N → ¬ A'.Stored i j := by
  have hR := Csr.represents_iff.1 hA
  obtain ⟨A', e, h1, h2, h3, h4⟩ := Res.wp_exists (Csr.wp_forRows (E := False) hsc hR.size
    (fun i r => r.Holds N (a i)) (fun _ r => r.Is []) hR.holds
    (fun i r _ hr => Res.wp_mono (CsrRow.wp_clear hr.is) fun _ h => h.1))
  refine ⟨A', e, h2, Csr.represents_iff.2 ⟨h1.trans hR.dim, h3, fun i hi =>
    CsrRow.Holds.of_nil (h4 i hi)⟩, fun i j hi hs => ?_⟩
  rw [Csr.stored_iff, Csr.row, (h4 i hi).2] at hs
  simp at hs

/-- **C48**: any history of writes on the cleared matrix has the result it has on a new matrix. -/
theorem C48_csr_reuse {N : Nat} {A : Csr R} {a : Spec.Mat R} (hA : A.Represents N a) {sc : Sched}
    (hsc : IsSched 0 N sc) (ws : List (Write R)) (hw : Allowed N (fun _ _ => False) ws) :
    ∃ A' b, (do let A ← A.clear sc; forList ws A (fun w A => w.run A)) = .ok A' ∧
      A'.Represents N b ∧
      ∃ B', forList ws (Csr.newZero N A.M) (fun w A => w.run A) = .ok B' ∧ B'.Represents N b := by
  obtain ⟨A1, e1, -, h1, hs⟩ := C48_csr_clear hA hsc
  have hsub : ∀ {ws : List (Write R)} {S S' : Nat → Nat → Prop},
      (∀ i j, i < N → S' i j → S i j) → Allowed N S ws → Allowed N S' ws := by
    intro ws
    induction ws with
    | nil => intros; trivial
    | cons w ws ih =>
      rintro S S' h ⟨g1, g2, g3, g4⟩
      refine ⟨g1, g2, fun hf hS => g3 hf (h _ _ g1 hS), ih ?_ g4⟩
      intro i j hi
      rintro (h' | h')
      · exact Or.inl (h i j hi h')
      · exact Or.inr h'
  obtain ⟨A', e, h⟩ := C02_history ws h1 (hsub (fun i j hi h => (hs i j hi h).elim) hw)
  obtain ⟨B', e', h'⟩ := C02_history ws (C32_csr_zero (R := R) N A.M) (hsub (fun i j _ h => by
    simp [Csr.Stored, Csr.newZero, CsrRow.zero] at h) hw)
  exact ⟨A', _, by rw [e1, Res.bind_ok]; exact e, h, B', e', h'⟩

example : ∃ A', (do let A ← exC.clear (seqSched 0 2); A.setElement 1 1 (4 : Int)) = .ok A' ∧
    A'.getElement 1 1 = .ok 4 ∧ A'.getElement 0 1 = .ok 0 := ⟨_, rfl, by decide, by decide⟩

end Bml.Props
