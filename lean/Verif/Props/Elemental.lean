import Verif.Elemental
import Verif.Props.EllAccess
import Verif.Props.EllConstruct
import Verif.Props.Csr
import Verif.Props.Dense

/-!
# C69: the typed element functions

`bml_get_element_double_real(A, i, j)` and its three variants should return the element that
`bml_get_element(A, i, j)` points to.
-/

namespace Bml.Elemental

variable {R : Type} [CommRing R]

theorem findOwn_eq (A : Ell R) (i j : Nat) : ∀ n p, findOwn A i j p n = A.findFrom i j p n := by
  intro n
  induction n with
  | zero => intro p; rfl
  | succ n ih =>
    intro p
    simp only [findOwn, Ell.findFrom]
    congr 1
    funext k
    rw [ih]

/-- The search in the columns of row 0 and that in the columns of row `i` agree if the columns do. -/
theorem findFirst_eq {A : Ell R} (hs : A.Shape) {i j : Nat} (hi : i < A.N) : ∀ n p, p + n ≤ A.M →
    (∀ k, p ≤ k → k < p + n → A.idx.get k = A.idx.get (i * A.M + k)) →
    findFirst A i j p n = A.findFrom i j p n := by
  intro n
  induction n with
  | zero => intro p _ _; rfl
  | succ n ih =>
    intro p hp h
    have hadr : i * A.M + p < A.N * A.M := addr_lt hi (by omega)
    have h0 : p < A.N * A.M := by
      have : 0 * A.M + p < A.N * A.M := addr_lt (by omega) (by omega)
      omega
    simp only [findFirst, Ell.findFrom]
    rw [Arr.read_ok (by rw [hs.idx_size]; exact h0),
      show A.idx.read (ROWMAJOR i p A.N A.M) = .ok (A.idx.get (i * A.M + p)) from
        Arr.read_ok (by rw [hs.idx_size]; exact hadr)]
    simp only [Res.bind_ok]
    rw [h p (le_refl _) (by omega), ih (p + 1) (by omega) fun k h1 h2 => h k (by omega) (by omega)]

/-- On a well-formed matrix the search never leaves the arrays. -/
theorem findFirst_ok {A : Ell R} (hs : A.Shape) {i j : Nat} (hi : i < A.N) : ∀ n p, p + n ≤ A.M →
    ∃ x, findFirst A i j p n = .ok x := by
  intro n
  induction n with
  | zero => intro p _; exact ⟨0, rfl⟩
  | succ n ih =>
    intro p hp
    have hadr : i * A.M + p < A.N * A.M := addr_lt hi (by omega)
    have h0 : p < A.N * A.M := by
      have : 0 * A.M + p < A.N * A.M := addr_lt (by omega) (by omega)
      omega
    simp only [findFirst]
    rw [Arr.read_ok (by rw [hs.idx_size]; exact h0)]
    simp only [Res.bind_ok]
    split
    · exact ⟨_, Arr.read_ok (by rw [hs.val_size]; exact hadr)⟩
    · exact ih (p + 1) (by omega)

theorem ellpack_in {A : Ell R} {N : Nat} {a : Spec.Mat R} (hR : A.Rep N a) {i j : Nat} (hi : i < N)
    (hj : j < N) (f : Kind) (hf : f ≠ .singleReal) :
    ellpack f A i j = findFirst A i j 0 (A.nnz.get i) := by
  have hd := hR.dim
  unfold ellpack
  rw [if_neg (by omega), if_neg (by omega)]
  simp only [Int.toNat_natCast]
  rw [Arr.read_ok (by rw [hR.shape.nnz_size]; omega), Res.bind_ok]

theorem ellpack_own (A : Ell R) (i j : Int) : ellpack .singleReal A i j = A.getElement i j := by
  unfold ellpack Ell.getElement
  simp only [findOwn_eq]

/-- The columns stored in a row, from the list of its entries. -/
theorem idx_of_row {A : Ell R} {i k : Nat} {L : SRow R} (h : A.row i = L) (hk : k < A.nnz.get i) :
    (L.map Prod.fst)[k]? = some (A.idx.get (i * A.M + k)) := by
  subst h
  unfold Ell.row Ell.rowPre
  simp [hk]

/-- The rows of the identity matrix. -/
theorem identity_rows {N M : Nat} (hM : M > 0) {sc : Sched} (hsc : IsSched 0 N sc) :
    (Ell.identity N M sc : Res (Ell R)).wp False (fun A => A.M = M ∧ A.Shape ∧ A.N = N ∧
      ∀ i, i < N → A.RowSat i (fun L => L = [(i, 1)])) := by
  unfold Ell.identity Ell.newZero
  rw [if_pos hM, Res.bind_ok]
  refine Res.wp_mono (Ell.wp_kernel0 (N := N) (M := M) hsc (le_refl _)
    (fun i A => do
      let A ← A.putEntry i 0 i 1
      A.setNnz i 1) (fun _ _ => True) (fun i L => L = [(i, 1)]) ?_
    (C := Ell.zeroMatrix N M) ⟨rfl, rfl, rfl⟩ rfl rfl (fun i hi => ⟨Nat.zero_le _, trivial⟩)) ?_
  · intro i C _ hi hS hN hCM _
    rw [Ell.putEntry_eq hS _ _ (by omega) (by omega), Res.bind_ok,
      Ell.setNnz_eq (hS.put _ _ _ _) _ (by simp; omega)]
    refine ⟨(hS.put _ _ _ _).withNnz _ _, (Ell.frame_put C _ _ (by omega)).trans
      (Ell.frame_withNnz _ _ _), by simp; omega, ?_⟩
    rw [Ell.withNnz_row_same]
    have := Ell.put_rowPre_succ C (i := i) (p := 0) (k := i) (v := (1 : R)) (by omega)
    simpa using this
  · rintro A ⟨h1, h2, h3, h4⟩
    refine ⟨h3, h1, h2, fun i hi => ?_⟩
    have := h4 i hi
    rw [if_pos (by omega)] at this
    exact this

end Bml.Elemental

namespace Bml.Props

open Bml.Elemental

variable {R : Type} [CommRing R]

/-- **C69 (partial)**, dense: inside the matrix each of the four functions, called on a matrix of its
own precision, returns the element. -/
theorem C69_dense_partial {N : Nat} {A : Dense R} {a : Spec.Mat R}
    (hA : A.Represents N a) (f : Kind) {i j : Nat} (hi : i < N) (hj : j < N) :
    getTyped f f (.dense A) i j = .ok (a i j) := by
  have h := Dense.represents_iff.1 hA
  have hd := h.dim
  unfold getTyped dense
  simp only
  rw [if_neg (by omega), if_neg (by omega)]
  simp only [Int.toNat_natCast]
  unfold ROWMAJOR
  rw [Arr.read_ok (by rw [h.size, hd]; exact addr_lt hi hj), hd, h.get i j hi hj]
  simp

/-- **C69**, dense: an index out of range is an error, on either side and for either index.  (Unlike
`bml_get_element`, which does not check: C34.) -/
theorem C69_dense_range {N : Nat} {A : Dense R} {a : Spec.Mat R} (hA : A.Represents N a)
    (f p : Kind) (i j : Int) (h : i < 0 ∨ (N : Int) ≤ i ∨ j < 0 ∨ (N : Int) ≤ j) :
    getTyped f p (.dense A) i j = .error := by
  have hd := hA.dim
  unfold getTyped dense
  simp only
  by_cases h1 : i < 0 ∨ i ≥ A.N
  · rw [if_pos h1]; rfl
  · rw [if_neg h1, if_pos (by omega)]; rfl

/-- **C69 (partial)**, ELLPACK: the single-precision real function returns the element. -/
theorem C69_ellpack_single_partial {N : Nat} {A : Ell R} {a : Spec.Mat R} (hA : A.Represents N a)
    {i j : Nat} (hi : i < N) (hj : j < N) :
    getTyped .singleReal .singleReal (.ellpack A) i j = .ok (a i j) := by
  unfold getTyped
  simp only
  rw [ellpack_own, hA.get i j hi hj]
  simp

/-- **C69**, ELLPACK: an index out of range is an error. -/
theorem C69_ellpack_range {N : Nat} {A : Ell R} {a : Spec.Mat R} (hA : A.Represents N a)
    (f p : Kind) (i j : Int) (h : i < 0 ∨ (N : Int) ≤ i ∨ j < 0 ∨ (N : Int) ≤ j) :
    getTyped f p (.ellpack A) i j = .error := by
  have hd := hA.dim
  unfold getTyped ellpack
  simp only
  by_cases h1 : i < 0 ∨ i ≥ A.N
  · rw [if_pos h1]; rfl
  · rw [if_neg h1, if_pos (by omega)]; rfl

/-- **C69 (partial)**, ELLPACK: the other three functions return the element of a row whose columns
are stored in the order in which row 0 stores its own.  Every row of a matrix imported without
dropping an element is such a row, and so is row 0 of any matrix. -/
theorem C69_ellpack_partial {N : Nat} {A : Ell R} {a : Spec.Mat R} (hA : A.Represents N a)
    (f : Kind) {i j : Nat} (hi : i < N) (hj : j < N)
    (horder : ∀ k, k < A.nnz.get i → A.idx.get k = A.idx.get (i * A.M + k)) :
    getTyped f f (.ellpack A) i j = .ok (a i j) := by
  have hR := Ell.represents_iff.1 hA
  by_cases hf : f = .singleReal
  · subst hf; exact C69_ellpack_single_partial hA hi hj
  · have h1 : A.findFrom i j 0 (A.nnz.get i) = .ok (a i j) := by
      rw [← hA.get i j hi hj]
      have hd := hR.dim
      unfold Ell.getElement
      rw [if_neg (by omega), if_neg (by omega)]
      simp only [Int.toNat_natCast]
      rw [Arr.read_ok (by rw [hR.shape.nnz_size]; omega), Res.bind_ok]
    unfold getTyped
    simp only
    rw [ellpack_in hR hi hj f hf, findFirst_eq hR.shape (by rw [hR.dim]; exact hi) _ _
      (by rw [Nat.zero_add]; exact hR.le i hi) (fun k _ hk => horder k (by omega)), h1]
    simp

/-- **C69 (partial)**: row 0. -/
theorem C69_ellpack_row_zero_partial {N : Nat} {A : Ell R} {a : Spec.Mat R}
    (hA : A.Represents N a) (f : Kind) {j : Nat} (hj : j < N) :
    getTyped f f (.ellpack A) (0 : Nat) j = .ok (a 0 j) :=
  C69_ellpack_partial hA f (by omega) hj fun k _ => by rw [Nat.zero_mul, Nat.zero_add]

/-- **C69**, ELLPACK: on every well-formed matrix of the right precision the functions come back with
some number. -/
theorem C69_ellpack_defined {N : Nat} {A : Ell R} {a : Spec.Mat R} (hA : A.Represents N a)
    (f : Kind) {i j : Nat} (hi : i < N) (hj : j < N) :
    ∃ x, getTyped f f (.ellpack A) i j = .ok x := by
  have hR := Ell.represents_iff.1 hA
  by_cases hf : f = .singleReal
  · subst hf; exact ⟨_, C69_ellpack_single_partial hA hi hj⟩
  · obtain ⟨x, hx⟩ := findFirst_ok (j := j) hR.shape (i := i) (by rw [hR.dim]; exact hi)
      (A.nnz.get i) 0 (by rw [Nat.zero_add]; exact hR.le i hi)
    refine ⟨x, ?_⟩
    unfold getTyped
    simp only
    rw [ellpack_in hR hi hj f hf, hx]
    simp

/-- **C69 fails** for ELLPACK in three of the four precisions: if row `i` holds an element, and the
first column stored in row 0 is `j`, then the element `(i, j)` is reported to be the first element
stored in row `i`, whichever column that is in. -/
theorem C69_ellpack_wrong_column {N : Nat} {A : Ell R} {a : Spec.Mat R} (hA : A.Represents N a)
    (f : Kind) (hf : f ≠ .singleReal) {i j c : Nat} (hi : i < N) (hj : j < N)
    (hi0 : 0 < A.nnz.get i) (hj0 : A.idx.get 0 = j) (hc : A.idx.get (i * A.M) = c) :
    getTyped f f (.ellpack A) i j = .ok (a i c) := by
  have hR := Ell.represents_iff.1 hA
  have hle := hR.le i hi
  have hadr : i * A.M + 0 < A.N * A.M := addr_lt (by rw [hR.dim]; exact hi) (by omega)
  have hc' : c < N ∧ (A.row i).den c = A.val.get (i * A.M) := by
    have hm : (c, A.val.get (i * A.M)) ∈ A.row i := by
      unfold Ell.row Ell.rowPre
      exact List.mem_map.2 ⟨0, List.mem_range.2 hi0, by simp [hc]⟩
    exact ⟨(hR.good i hi).2 _ hm, SRow.den_of_mem (hR.good i hi).1 hm⟩
  unfold getTyped
  simp only
  rw [ellpack_in hR hi hj f hf]
  obtain ⟨n, hn⟩ : ∃ n, A.nnz.get i = n + 1 := ⟨A.nnz.get i - 1, by omega⟩
  rw [hn]
  simp only [findFirst]
  rw [Arr.read_ok (by rw [hR.shape.idx_size]; omega)]
  simp only [Res.bind_ok]
  rw [if_pos hj0, show A.val.read (ROWMAJOR i 0 A.N A.M) = .ok (A.val.get (i * A.M)) from
    Arr.read_ok (by rw [hR.shape.val_size]; exact hadr), ← hc'.2, hR.den i c hi hc'.1]
  simp

/-- **C69 fails** for every identity matrix: below the first row, the functions other than the
single-precision real one report a zero diagonal and a column 0 full of ones. -/
theorem C69_identity_wrong {N M : Nat} (hM : M > 0) {sc : Sched} (hsc : IsSched 0 N sc) :
    ∃ A : Ell R, Ell.identity N M sc = .ok A ∧ A.Represents N Spec.one ∧
      ∀ f : Kind, f ≠ .singleReal → ∀ i, 0 < i → i < N →
        getTyped f f (.ellpack A) i i = .ok 0 ∧ getTyped f f (.ellpack A) i (0 : Nat) = .ok 1 := by
  obtain ⟨A, e, h1, h2, h3, h4⟩ := Res.wp_exists (identity_rows (R := R) hM hsc)
  obtain ⟨A', e', -, h⟩ := Res.wp_exists (Ell.wp_identity (R := R) (E := False) hM hsc)
  have : A' = A := Res.ok.inj (e'.symm.trans e)
  subst this
  have hR := Ell.represents_iff.2 h
  refine ⟨A', e, hR, fun f hf i hi hiN => ?_⟩
  have hn : ∀ i, i < N → A'.nnz.get i = 1 := fun i hi => by
    have := congrArg List.length (h4 i hi).2
    simpa using this
  have hx : ∀ i, i < N → A'.idx.get (i * A'.M) = i := fun i hi => by
    have := idx_of_row (k := 0) (h4 i hi).2 (by rw [hn i hi]; omega)
    simpa using this.symm
  have h0 : A'.idx.get 0 = 0 := by simpa using hx 0 (by omega)
  constructor
  · unfold getTyped
    simp only
    rw [ellpack_in h hiN hiN f hf, hn i hiN]
    simp only [findFirst]
    rw [Arr.read_ok (by rw [h2.idx_size]; exact Nat.mul_pos (by omega) (by omega))]
    simp only [Res.bind_ok, h0]
    rw [if_neg (by omega)]
    simp
  · rw [C69_ellpack_wrong_column hR f hf hiN (by omega) (by rw [hn i hiN]; omega) h0 (hx i hiN)]
    simp [Spec.one]

/-- **C69 (partial)**: after importing a dense array all of whose elements are above the threshold,
every function returns every element.  (This is the case that the tests of the library try.) -/
theorem C69_import_partial {N M : Nat} (hM : M > 0) (hNM : N ≤ M) {order : Order} {D : Arr R}
    (hD : N * N ≤ D.size) (big : R → Bool) {sc : Sched} (hsc : IsSched 0 N sc)
    (hall : ∀ i j, i < N → j < N → big (D.get (order.addr i j N)) = true) :
    ∃ A, Ell.importDense order N D big M sc = .ok A ∧ ∀ (f : Kind) (i j : Nat), i < N → j < N →
      getTyped f f (.ellpack A) i j = .ok (D.get (order.addr i j N)) := by
  have hfit : ∀ i, i < N → Spec.rowCount big N (fun i j => D.get (order.addr i j N)) i ≤ M :=
    fun i _ => by
      unfold Spec.rowCount
      exact (Finset.card_filter_le _ _).trans (by simpa using hNM)
  obtain ⟨A, e, h⟩ := Res.wp_exists (Ell.wp_import (E := False) hM hD big hsc hfit)
  have hR := Ell.represents_iff.2 (Ell.rep_import h)
  have hrow : ∀ i, i < N → (A.row i).map Prod.fst = List.range N := fun i hi => by
    rw [(h.2.2.2 i hi).2, SRow.ofCols_map_fst, List.filter_eq_self.2]
    intro j hj
    exact hall i j hi (List.mem_range.1 hj)
  have hidx : ∀ i, i < N → ∀ k, k < A.nnz.get i → A.idx.get (i * A.M + k) = k := by
    intro i hi k hk
    have := idx_of_row (L := A.row i) rfl hk
    rw [hrow i hi, List.getElem?_range (by
      have := congrArg List.length (hrow i hi)
      simp at this
      omega)] at this
    exact (Option.some.inj this).symm
  refine ⟨A, e, fun f i j hi hj => ?_⟩
  rw [C69_ellpack_partial hR f hi hj fun k hk => ?_]
  · rw [Spec.keep, if_pos (hall i j hi hj)]
  · have hn : ∀ i, i < N → A.nnz.get i = N := fun i hi => by
      have := congrArg List.length (hrow i hi)
      simpa using this
    have h0 := hidx 0 (by omega) k (by rw [hn 0 (by omega)]; rw [hn i hi] at hk; exact hk)
    rw [Nat.zero_mul, Nat.zero_add] at h0
    rw [h0, hidx i hi k hk]

/-- **C69**: matrices of the other formats are refused, with a message. -/
theorem C69_other_formats (f p : Kind) (i j : Int) (A : Csr R) (B : EllB R) :
    getTyped f p (.csr A) i j = .error ∧ getTyped f p (.ellblock B) i j = .error ∧
      getTyped f p (.distributed : Any R) i j = .error := ⟨rfl, rfl, rfl⟩

/-- **C69 fails** for a matrix of another precision: nothing is reported, and the elements are read as
numbers of the wrong type. -/
theorem C69_precision_unchecked {N : Nat} {A : Dense R} {a : Spec.Mat R} (hA : A.Represents N a)
    {f p : Kind} (hp : f ≠ p) {i j : Nat} (hi : i < N) (hj : j < N) :
    getTyped f p (.dense A) i j = .ub := by
  have h := C69_dense_partial hA f hi hj
  unfold getTyped at h ⊢
  simp only at h ⊢
  cases e : dense A i j with
  | ok x => rw [Res.bind_ok, if_neg hp]
  | error => rw [e] at h; cases h
  | ub => rfl

/-- The `3 × 3` example matrix: its elements read with `bml_get_element_double_real`. -/
example : getTyped .singleReal .singleReal (.ellpack exA) 1 1 = .ok (exa 1 1) :=
  C69_ellpack_single_partial exA_rep (by decide) (by decide)

example : getTyped .doubleReal .doubleReal (.ellpack exA) 0 2 = .ok (exa 0 2) :=
  C69_ellpack_row_zero_partial exA_rep .doubleReal (by decide)

example : ∃ x, getTyped .doubleComplex .doubleComplex (.ellpack exA) 2 1 = .ok x :=
  C69_ellpack_defined exA_rep .doubleComplex (by decide) (by decide)

example : getTyped .doubleReal .doubleReal (.ellpack exA) 3 0 = .error :=
  C69_ellpack_range exA_rep _ _ _ _ (by decide)

example : getTyped .doubleReal .doubleReal (.dense (Dense.ofMat 2 exD)) 1 0 = .ok 3 ∧
    getTyped .singleReal .doubleReal (.dense (Dense.ofMat 2 exD)) 1 0 = .ub ∧
    getTyped .doubleReal .doubleReal (.dense (Dense.ofMat 2 exD)) 0 2 = .error :=
  ⟨C69_dense_partial (Dense.ofMat_rep 2 exD) _ (by decide) (by decide),
    C69_precision_unchecked (Dense.ofMat_rep 2 exD) (by decide) (by decide) (by decide),
    C69_dense_range (Dense.ofMat_rep 2 exD) _ _ _ _ (by decide)⟩

/-- A `3 × 3` identity matrix, with its rows made in the order 2, 0, 1 by two threads. -/
example : ∃ A : Ell Int, Ell.identity 3 2 exSched = .ok A ∧
    getTyped .doubleReal .doubleReal (.ellpack A) (2 : Nat) (2 : Nat) = .ok 0 ∧
    getTyped .doubleReal .doubleReal (.ellpack A) (2 : Nat) (0 : Nat) = .ok 1 := by
  obtain ⟨A, e, -, h⟩ := C69_identity_wrong (R := Int) (N := 3) (M := 2) (by decide) exSched_ok
  exact ⟨A, e, h .doubleReal (by decide) 2 (by decide) (by decide)⟩

example : ∃ A, Ell.importDense .colMajor 3 ⟨9, fun q => (q : Int) + 1⟩ (fun x => decide (x ≠ 0)) 3
    exSched = .ok A ∧ getTyped .doubleReal .doubleReal (.ellpack A) (2 : Nat) (1 : Nat) = .ok 6 := by
  obtain ⟨A, e, h⟩ := C69_import_partial (R := Int) (N := 3) (M := 3) (by decide) (by decide)
    (order := .colMajor) (D := ⟨9, fun q => (q : Int) + 1⟩) (by decide) (fun x => decide (x ≠ 0))
    exSched_ok (fun i j _ _ => decide_eq_true (by show ((Order.addr _ i j 3 : Nat) : Int) + 1 ≠ 0; omega))
  exact ⟨A, e, (h .doubleReal 2 1 (by decide) (by decide)).trans rfl⟩

end Bml.Props
