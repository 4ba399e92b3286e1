import Verif.Dense.Ops
import Verif.Props.EllOps
import Verif.Props.EllConstruct
import Verif.Props.EllNormalize

/-!
# Property theorems: the dense format

`A.Represents N a` says that `A` is an `N × N` matrix and that `bml_get_element` returns `a i j`
for all `i, j < N`.  `IsSched lo hi sc`: the OpenMP schedule `sc` runs every index of `[lo,hi)`
exactly once, in any order; `[lo,hi)` are the rows of the calling rank (`0`, `N` for one rank).
-/

namespace Bml.Dense

variable {R : Type}

theorem exists_of_wp {r : Res (Dense R)} {N : Nat} {a : Spec.Mat R}
    (h : r.wp False (fun A => A.Rep N a)) : ∃ A, r = .ok A ∧ A.Represents N a := by
  obtain ⟨A, e, h⟩ := Res.wp_exists h
  exact ⟨A, e, represents_iff.2 h⟩

theorem Represents.unique {A : Dense R} {N : Nat} {a b : Spec.Mat R} (h : A.Represents N a)
    (h' : A.Represents N b) : Spec.Eq N a b := by
  intro i j hi hj
  have := h.get i j hi hj
  rw [h'.get i j hi hj] at this
  exact (Res.ok.inj this).symm

/-- The matrix with elements `a`. -/
def ofMat (N : Nat) (a : Spec.Mat R) : Dense R := ⟨N, ⟨N * N, flat N a⟩⟩

theorem ofMat_rep (N : Nat) (a : Spec.Mat R) : (ofMat N a).Represents N a :=
  represents_iff.2 ⟨rfl, rfl, fun _ _ _ hj => flat_addr a hj⟩

end Bml.Dense

namespace Bml.Props

open Bml

variable {R : Type}

/-- A `2 × 2` example. -/
def exD : Spec.Mat Int := fun i j => if i = 0 then (if j = 0 then 1 else 2) else (if j = 0 then 3 else 4)

/-! ## C03, C34 -/

/-- **C03.**  `bml_set_element` (and `bml_set_element_new`) on a dense matrix. -/
theorem C03_set_element {N : Nat} {A : Dense R} {a : Spec.Mat R} (hA : A.Represents N a) {i j : Nat}
    (hi : i < N) (hj : j < N) (v : R) :
    ∃ A', A.setElement i j v = .ok A' ∧ A'.N = N ∧ A'.getElement i j = .ok v ∧
      ∀ i' j' : Nat, i' < N → j' < N → (i', j') ≠ (i, j) →
        A'.getElement i' j' = A.getElement i' j' := by
  obtain ⟨A', e, h⟩ := Dense.exists_of_wp (Dense.wp_setElement (Dense.represents_iff.1 hA) hi hj v)
  refine ⟨A', e, h.dim, ?_, fun i' j' hi' hj' hne => ?_⟩
  · rw [h.get i j hi hj]; simp [Spec.set]
  · rw [h.get i' j' hi' hj', hA.get i' j' hi' hj', Spec.set, if_neg]
    rintro ⟨rfl, rfl⟩
    exact hne rfl

/-- **C03**, histories: any sequence of writes in range leaves the last value of every element. -/
theorem C03_history {N : Nat} (ws : List (Nat × Nat × R)) : ∀ {A : Dense R} {a : Spec.Mat R},
    A.Represents N a → (∀ w ∈ ws, w.1 < N ∧ w.2.1 < N) →
    ∃ A', forList ws A (fun w A => A.setElement w.1 w.2.1 w.2.2) = .ok A' ∧
      A'.Represents N (ws.foldl (fun a w => Spec.set a w.1 w.2.1 w.2.2) a) := by
  induction ws with
  | nil => intro A a hA _; exact ⟨A, rfl, hA⟩
  | cons w ws ih =>
    intro A a hA hw
    obtain ⟨h1, h2⟩ := hw w (by simp)
    obtain ⟨A', e, h⟩ :=
      Dense.exists_of_wp (Dense.wp_setElement (Dense.represents_iff.1 hA) h1 h2 w.2.2)
    obtain ⟨A'', e', h'⟩ := ih h fun w hw' => hw w (by simp [hw'])
    exact ⟨A'', by rw [forList_cons, e, Res.bind_ok]; exact e', h'⟩

example : ∃ A', forList [(0, 1, (5 : Int)), (1, 0, 6), (0, 1, 7)] (Dense.ofMat 2 exD)
    (fun w A => A.setElement w.1 w.2.1 w.2.2) = .ok A' ∧ A'.getElement 0 1 = .ok 7 := by
  obtain ⟨A', e, h⟩ := C03_history [(0, 1, (5 : Int)), (1, 0, 6), (0, 1, 7)]
    (Dense.ofMat_rep 2 exD) (by simp)
  exact ⟨A', e, h.get 0 1 (by omega) (by omega)⟩

/-- **C34 fails for the dense format**: a column index outside of the matrix returns an element of
another row, for every dense matrix. -/
theorem C34_dense_wrong_column {N : Nat} {A : Dense R} {a : Spec.Mat R} (hA : A.Represents N a)
    {i j : Nat} (hi : i + 1 < N) (hj : j < N) :
    A.getElement i ((N : Int) + j) = .ok (a (i + 1) j) := by
  have h := (hA.get (i + 1) j hi hj).symm
  rw [h]
  unfold Dense.getElement
  congr 1
  rw [hA.dim]
  push_cast
  ring

/-- A row index outside of the matrix reads outside of the allocation. -/
theorem C34_dense_out_of_bounds {N : Nat} {A : Dense R} {a : Spec.Mat R} (hA : A.Represents N a)
    {i j : Nat} (hi : N ≤ i) : A.getElement i j = .ub := by
  unfold Dense.getElement Dense.readInt
  have e : ((i : Int) * (A.N : Int) + (j : Int)) = ((i * N + j : Nat) : Int) := by
    rw [hA.dim]; push_cast; rfl
  rw [e, if_neg (by omega), Int.toNat_natCast]
  refine Arr.read_ub (by
    rw [hA.size]
    have := Nat.mul_le_mul_right N hi
    omega)

example : (Dense.ofMat 2 exD).getElement 0 2 = .ok 3 ∧ (Dense.ofMat 2 exD).getElement 2 0 = .ub :=
  ⟨by decide, rfl⟩

/-! ## C04, C05 -/

/-- **C04**, dense: the row is stored as it is; the threshold argument of `bml_set_row` is not
used for dense matrices (`bml_setters.c` 76-77), so this is the property for threshold-free rows
only. -/
theorem C04_dense_set_get_row_partial {N : Nat} {A : Dense R} {a : Spec.Mat R}
    (hA : A.Represents N a) {i : Nat} (hi : i < N) {row : Arr R} (hrow : N ≤ row.size)
    (junk : Nat → R) :
    ∃ A', A.setRow i row = .ok A' ∧
      A'.Represents N (fun i' j => if i' = i then row.get j else a i' j) ∧
      ∃ r, A'.getRow i junk = .ok r ∧ r.size = N ∧ ∀ j, j < N → r.get j = row.get j := by
  obtain ⟨A', e, h⟩ := Dense.exists_of_wp (Dense.wp_setRow (Dense.represents_iff.1 hA) hi hrow)
  obtain ⟨r, e', h1, h2⟩ :=
    Res.wp_exists (Dense.wp_getRow (E := False) (Dense.represents_iff.1 h) hi junk)
  exact ⟨A', e, h, r, e', h1, fun j hj => by rw [h2 j hj]; simp⟩

/-- `bml_get_row` returns the elements of the row. -/
theorem C04_dense_get_row {N : Nat} {A : Dense R} {a : Spec.Mat R} (hA : A.Represents N a)
    {i : Nat} (hi : i < N) (junk : Nat → R) :
    ∃ r, A.getRow i junk = .ok r ∧ r.size = N ∧ ∀ j, j < N → r.get j = a i j :=
  Res.wp_exists (Dense.wp_getRow (E := False) (Dense.represents_iff.1 hA) hi junk)

/-- **C05**, dense, without a threshold (`bml_setters.c` 107-108). -/
theorem C05_dense_set_get_diagonal_partial {N : Nat} {A : Dense R} {a : Spec.Mat R}
    (hA : A.Represents N a) {d : Arr R} (hd : N ≤ d.size) (junk : Nat → R) :
    ∃ A', A.setDiagonal d = .ok A' ∧
      A'.Represents N (fun i j => if i = j then d.get i else a i j) ∧
      ∃ r, A'.getDiagonal junk = .ok r ∧ r.size = N ∧ ∀ j, j < N → r.get j = d.get j := by
  obtain ⟨A', e, h⟩ := Dense.exists_of_wp (Dense.wp_setDiagonal (Dense.represents_iff.1 hA) hd)
  obtain ⟨r, e', h1, h2⟩ :=
    Res.wp_exists (Dense.wp_getDiagonal (E := False) (Dense.represents_iff.1 h) junk)
  exact ⟨A', e, h, r, e', h1, fun j hj => by rw [h2 j hj]; simp⟩

/-- Small entries are not dropped, whatever the threshold: the row `(1, 1)` is read back as
`(1, 1)`. -/
theorem C04_dense_threshold_witness :
    ∃ A', (Dense.ofMat 2 exD).setRow 0 ⟨2, fun _ => 1⟩ = .ok A' ∧ A'.getElement 0 1 = .ok 1 := by
  obtain ⟨A', e, h, -⟩ := C04_dense_set_get_row_partial (Dense.ofMat_rep 2 exD) (i := 0)
    (by omega) (row := ⟨2, fun _ => 1⟩) (le_refl 2) (fun _ => 0)
  exact ⟨A', e, h.get 0 1 (by omega) (by omega)⟩

example : ∃ A', (Dense.ofMat 2 exD).setDiagonal ⟨2, fun _ => 9⟩ = .ok A' ∧
    A'.getElement 1 1 = .ok 9 ∧ A'.getElement 1 0 = .ok 3 := by
  obtain ⟨A', e, h, -⟩ := C05_dense_set_get_diagonal_partial (Dense.ofMat_rep 2 exD)
    (d := ⟨2, fun _ => 9⟩) (le_refl 2) (fun _ => 0)
  exact ⟨A', e, h.get 1 1 (by omega) (by omega), h.get 1 0 (by omega) (by omega)⟩

/-! ## C06, C07, C29, C30, C32, C48 -/

/-- **C06**, dense: import and export in any two orders move element `(i,j)` to its place in the
other layout.  (No threshold is applied to dense matrices.) -/
theorem C06_dense_round_trip [Zero R] {N : Nat} (o o' : Order) {D : Arr R} (hD : N * N ≤ D.size)
    (junk : Nat → R) :
    ∃ A D', Dense.importDense o N D = .ok A ∧
      A.Represents N (fun i j => D.get (o.addr i j N)) ∧
      A.exportDense o' junk = .ok D' ∧ D'.size = N * N ∧
      ∀ i j, i < N → j < N → D'.get (o'.addr i j N) = D.get (o.addr i j N) := by
  obtain ⟨A, e, h⟩ := Dense.exists_of_wp (Dense.wp_import (R := R) o hD)
  obtain ⟨D', e', h1, h2⟩ :=
    Res.wp_exists (Dense.wp_export (E := False) (Dense.represents_iff.1 h) o' junk)
  exact ⟨A, D', e, h, e', h1, h2⟩

example : ∃ A D', Dense.importDense .colMajor 2 (⟨4, fun k => (k : Int)⟩) = .ok A ∧
    A.exportDense .rowMajor (fun _ => 0) = .ok D' ∧ D'.get 1 = 2 := by
  obtain ⟨A, D', e, -, e', -, h⟩ := C06_dense_round_trip .colMajor .rowMajor (N := 2)
    (D := ⟨4, fun k => (k : Int)⟩) (by decide) (fun _ => 0)
  exact ⟨A, D', e, e', h 0 1 (by omega) (by omega)⟩

/-- **C07**, dense: `bml_copy_new`. -/
theorem C07_dense_copy_new {N : Nat} {A : Dense R} {a : Spec.Mat R} (hA : A.Represents N a)
    (junk : Nat → R) : ∃ B, A.copyNew junk = .ok B ∧ B.Represents N a :=
  Dense.exists_of_wp (Dense.wp_copyNew (Dense.represents_iff.1 hA) junk)

/-- **C07**, dense: `bml_copy` copies between matrices of the same size and reports an error for
different sizes. -/
theorem C07_dense_copy {N N' : Nat} {A B : Dense R} {a b : Spec.Mat R} (hA : A.Represents N a)
    (hB : B.Represents N' b) :
    (N = N' → ∃ B', A.bmlCopy B = .ok B' ∧ B'.Represents N a) ∧
    (N ≠ N' → A.bmlCopy B = .error) := by
  unfold Dense.bmlCopy
  rw [hA.dim, hB.dim]
  constructor
  · rintro rfl
    rw [if_neg (by simp), if_neg (by omega)]
    exact Dense.exists_of_wp
      (Dense.wp_copyInto (Dense.represents_iff.1 hA) (Dense.represents_iff.1 hB))
  · intro h
    rw [if_pos h]

example : ∃ B', (Dense.ofMat 2 exD).bmlCopy (Dense.zeroMatrix 2) = .ok B' ∧
    B'.getElement 1 0 = .ok 3 := by
  obtain ⟨B', e, h⟩ := (C07_dense_copy (Dense.ofMat_rep 2 exD)
    (Dense.represents_iff.2 (Dense.zero_rep 2))).1 rfl
  exact ⟨B', e, h.get 1 0 (by omega) (by omega)⟩

/-- **C29**, conversion to dense from any format whose `bml_get_element` returns `a i j`. -/
theorem C29_convert_dense [Zero R] {N : Nat} {get : Nat → Nat → Res R} {a : Spec.Mat R}
    (hget : ∀ i j, i < N → j < N → get i j = .ok (a i j)) :
    ∃ B, Dense.convertFrom get N = .ok B ∧ B.Represents N a :=
  Dense.exists_of_wp (Dense.wp_convertFrom hget)

/-- **C29**: ELLPACK to dense. -/
theorem C29_ellpack_to_dense [CommRing R] {N : Nat} {A : Ell R} {a : Spec.Mat R}
    (hA : A.Represents N a) :
    ∃ B, Dense.convertFrom (fun i j => A.getElement i j) N = .ok B ∧ B.Represents N a :=
  C29_convert_dense fun i j hi hj => hA.get i j hi hj

/-- **C29**: dense to ELLPACK and back gives the same elements, when the rows can hold `N`
entries. -/
theorem C29_dense_ellpack_round_trip_partial [CommRing R] {N M : Nat} (hM : M > 0) (hNM : N ≤ M)
    {A : Dense R} {a : Spec.Mat R} (hA : A.Represents N a) :
    ∃ B A', Ell.convertFrom (fun i j => A.getElement i j) N M = .ok B ∧ B.Represents N a ∧
      Dense.convertFrom (fun i j => B.getElement i j) N = .ok A' ∧ A'.Represents N a := by
  obtain ⟨B, e, -, h⟩ := C29_convert_partial hM hNM (fun i j hi hj => hA.get i j hi hj)
  obtain ⟨A', e', h'⟩ := C29_ellpack_to_dense h
  exact ⟨B, A', e, h, e', h'⟩

example : ∃ B A', Ell.convertFrom (fun i j => (Dense.ofMat 2 exD).getElement i j) 2 3 = .ok B ∧
    B.Represents 2 exD ∧ Dense.convertFrom (fun i j => B.getElement i j) 2 = .ok A' ∧
    A'.Represents 2 exD :=
  C29_dense_ellpack_round_trip_partial (by omega) (by omega) (Dense.ofMat_rep 2 exD)

/-- **C30, the dense format**: `bml_reorder` yields `A'(i,j) = A(i, perm j)`.  The row exchange of
the first loop is overwritten by the second loop.  -/
theorem C30_dense_value {N : Nat} {A : Dense R} {a : Spec.Mat R} (hA : A.Represents N a)
    {perm : Arr Nat} (hs : N ≤ perm.size) (hp : ∀ i, i < N → perm.get i < N)
    (hinj : ∀ i j, i < N → j < N → perm.get i = perm.get j → i = j) {sc1 sc2 : Sched}
    (h1 : IsSched 0 N sc1) (h2 : IsSched 0 N sc2) (junk : Nat → R) :
    ∃ A', A.reorder perm sc1 sc2 junk = .ok A' ∧ A'.Represents N (fun i j => a i (perm.get j)) :=
  Dense.exists_of_wp (Dense.wp_reorder (Dense.represents_iff.1 hA) hs hp hinj h1 h2 junk)

/-- **C30 fails for the dense format**: swapping the two indices of `[[1,2],[3,4]]` should give
`[[4,3],[2,1]]` but gives `[[2,1],[4,3]]`. -/
theorem C30_dense_witness :
    ∃ A', (Dense.ofMat 2 exD).reorder ⟨2, fun i => 1 - i⟩ (seqSched 0 2) (seqSched 0 2)
      (fun _ => 0) = .ok A' ∧ A'.getElement 1 1 = .ok 3 ∧ exD 0 0 = 1 := by
  obtain ⟨A', e, h⟩ := C30_dense_value (Dense.ofMat_rep 2 exD) (perm := ⟨2, fun i => 1 - i⟩)
    (le_refl 2) (fun i _ => by simp only; omega) (fun i j hi hj h => by simp only at h; omega)
    (isSched_seq 0 2) (isSched_seq 0 2) (fun _ => 0)
  exact ⟨A', e, h.get 1 1 (by omega) (by omega), rfl⟩

/-- **C32**, dense constructors. -/
theorem C32_dense_zero [Zero R] (N : Nat) : (Dense.zeroMatrix N : Dense R).Represents N Spec.zero :=
  Dense.represents_iff.2 (Dense.zero_rep N)

theorem C32_dense_identity [Zero R] [One R] {N : Nat} {sc : Sched} (hsc : IsSched 0 N sc) :
    ∃ A : Dense R, Dense.identity N sc = .ok A ∧ A.Represents N Spec.one :=
  Dense.exists_of_wp (Dense.wp_identity hsc)

/-- Element `(i,j)` of a banded matrix is the random value inside of the band
`i - M/2 ≤ j < i - M/2 + M` and zero outside. -/
theorem C32_dense_banded [Zero R] {N M : Nat} (rv : Nat → Nat → R) {sc : Sched}
    (hsc : IsSched 0 N sc) :
    ∃ A, Dense.banded N M rv sc = .ok A ∧ A.Represents N (fun i j =>
      if i ≤ j + M / 2 ∧ j + M / 2 < i + M then rv i j else 0) :=
  Dense.exists_of_wp (Dense.wp_banded rv hsc)

theorem C32_dense_random [Zero R] {N : Nat} (rv : Nat → Nat → R) :
    ∃ A, Dense.random N rv = .ok A ∧ A.Represents N rv :=
  Dense.exists_of_wp (Dense.wp_random rv)

/-- **C48**, dense: after `bml_clear` every element is zero and the matrix is the same value as a
new zero matrix. -/
theorem C48_dense_clear [Zero R] {N : Nat} {A : Dense R} {a : Spec.Mat R} (hA : A.Represents N a) :
    ∃ A', A.clear = .ok A' ∧ A'.N = N ∧ A'.Represents N Spec.zero ∧
      ∀ p, p < N * N → A'.mat.get p = (Dense.zeroMatrix N : Dense R).mat.get p := by
  obtain ⟨A', e, h, h2⟩ := Res.wp_exists (Dense.wp_clear (E := False) (Dense.represents_iff.1 hA))
  exact ⟨A', e, h.dim, Dense.represents_iff.2 h, h2⟩

example : ∃ A : Dense Int, Dense.banded 3 2 (fun _ _ => 7) (seqSched 0 3) = .ok A ∧
    A.getElement 1 0 = .ok 7 ∧ A.getElement 0 1 = .ok 0 := by
  obtain ⟨A, e, h⟩ := C32_dense_banded (N := 3) (M := 2) (fun _ _ => (7 : Int)) (isSched_seq 0 3)
  exact ⟨A, e, h.get 1 0 (by omega) (by omega), h.get 0 1 (by omega) (by omega)⟩

/-! ## C08, C09, C10, C11, C35 -/

section Arith

variable [CommRing R]

/-- **C08**, dense: `alpha*A + beta*B` on the rows of the rank, for two different matrices.  The
threshold argument is not used for dense matrices (`bml_add.c` 36-37), so this is the property for
results that are all above threshold or zero (see `C08_dense_add_partial`). -/
theorem C08_dense_add_value {N lo hi : Nat} {A B : Dense R} {a b : Spec.Mat R}
    (hA : A.Represents N a) (hB : B.Represents N b) (α β : R) (hlo : lo ≤ hi) (hhi : hi ≤ N) :
    ∃ A', Dense.add A B α β lo hi = .ok A' ∧
      A'.Represents N (Spec.onRows lo hi (fun i j => α * a i j + β * b i j) a) :=
  Dense.exists_of_wp
    (Dense.wp_add (Dense.represents_iff.1 hA) (Dense.represents_iff.1 hB) α β hlo hhi)

/-- **C08** as stated, when no nonzero element of the result is below the threshold. -/
theorem C08_dense_add_partial {N : Nat} {A B : Dense R} {a b : Spec.Mat R}
    (hA : A.Represents N a) (hB : B.Represents N b) (α β : R) (big : R → Bool)
    (hbig : ∀ i j, i < N → j < N → big (α * a i j + β * b i j) = false →
      α * a i j + β * b i j = 0) :
    ∃ A', Dense.add A B α β 0 N = .ok A' ∧
      A'.Represents N (fun i j => Spec.keep big (α * a i j + β * b i j)) := by
  obtain ⟨A', e, h⟩ := C08_dense_add_value hA hB α β (Nat.zero_le N) (le_refl N)
  refine ⟨A', e, h.congr fun i j hi hj => ?_⟩
  simp only [Spec.onRows]
  rw [if_pos ⟨Nat.zero_le i, hi⟩, Spec.keep]
  by_cases hb : big (α * a i j + β * b i j) = true
  · rw [if_pos hb]
  · rw [if_neg hb, hbig i j hi hj (by simpa using hb)]

/-- **C08 fails for the dense format when a result is below the threshold**: with threshold 5 the
sum `1 + 0` should be dropped but is kept. -/
theorem C08_dense_threshold_witness :
    ∃ A', Dense.add (Dense.ofMat 2 exD) (Dense.zeroMatrix 2) 1 1 0 2 = .ok A' ∧
      A'.getElement 0 0 = .ok 1 ∧ Spec.keep (fun x => decide (x > 5)) (1 * exD 0 0 + 1 * 0) = 0 := by
  obtain ⟨A', e, h⟩ := C08_dense_add_value (Dense.ofMat_rep 2 exD) (C32_dense_zero 2) 1 1
    (Nat.zero_le 2) (le_refl 2)
  exact ⟨A', e, h.get 0 0 (by omega) (by omega), by decide⟩

/-- `bml_add(A, A, alpha, beta)` with the same matrix twice gives `alpha*(1+beta)*A`. -/
theorem C08_dense_add_self_value {N : Nat} {A : Dense R} {a : Spec.Mat R} (hA : A.Represents N a)
    (α β : R) :
    ∃ A', Dense.addSelf A α β 0 N = .ok A' ∧
      A'.Represents N (fun i j => α * a i j + β * (α * a i j)) := by
  obtain ⟨A', e, h⟩ := Dense.exists_of_wp
    (Dense.wp_addSelf (Dense.represents_iff.1 hA) α β (Nat.zero_le N) (le_refl N))
  exact ⟨A', e, h.congr (Spec.onRows_all N _ _)⟩

/-- **C08 fails for `bml_add(A, A, 2, 1)` on dense matrices**: the element 1 becomes 4 instead of
3. -/
theorem C08_dense_add_self_witness :
    ∃ A', Dense.addSelf (Dense.ofMat 2 exD) 2 1 0 2 = .ok A' ∧ A'.getElement 0 0 = .ok 4 ∧
      2 * exD 0 0 + 1 * exD 0 0 = 3 := by
  obtain ⟨A', e, h⟩ := C08_dense_add_self_value (Dense.ofMat_rep 2 exD) 2 1
  exact ⟨A', e, h.get 0 0 (by omega) (by omega), by decide⟩

/-- `bml_add_norm` for the dense format: the sum, and the sum of the squares of `B`. -/
theorem C08_dense_add_norm_value {N : Nat} {A B : Dense R} {a b : Spec.Mat R}
    (hA : A.Represents N a) (hB : B.Represents N b) (α β : R) {sc : Sched}
    (hsc : IsSched (0 * N) (N * N) sc) :
    ∃ r, Dense.addNorm A B α β 0 N sc = .ok r ∧
      r.1.Represents N (fun i j => α * a i j + β * b i j) ∧
      r.2 = ∑ i ∈ Finset.range N, ∑ j ∈ Finset.range N, b i j * b i j := by
  obtain ⟨r, e, h1, h2⟩ := Res.wp_exists (Dense.addNorm_spec (E := False) (Dense.represents_iff.1 hA)
    (Dense.represents_iff.1 hB) α β (Nat.zero_le N) (le_refl N) hsc)
  refine ⟨r, e, (Dense.represents_iff.2 h1).congr (Spec.onRows_all N _ _), ?_⟩
  rw [h2, Finset.range_eq_Ico]

/-- **C09**, dense: `A + beta I` and `alpha A + beta I` on the rows of the rank; no threshold is
applied (`bml_add_dense_typed.c` 195-253). -/
theorem C09_dense_add_identity_partial {N lo hi : Nat} {A : Dense R} {a : Spec.Mat R}
    (hA : A.Represents N a) (β : R) {sc : Sched} (hsc : IsSched lo hi sc) (hhi : hi ≤ N) :
    ∃ A', Dense.addIdentity A β sc = .ok A' ∧
      A'.Represents N (Spec.onRows lo hi (fun i j => a i j + β * Spec.one i j) a) :=
  Dense.exists_of_wp (Dense.wp_addIdentity (Dense.represents_iff.1 hA) β hsc hhi)

theorem C09_dense_scale_add_identity_partial {N lo hi : Nat} {A : Dense R} {a : Spec.Mat R}
    (hA : A.Represents N a) (α β : R) (hlo : lo ≤ hi) (hhi : hi ≤ N) {sc : Sched}
    (hsc : IsSched lo hi sc) :
    ∃ A', Dense.scaleAddIdentity A α β lo hi sc = .ok A' ∧
      A'.Represents N (Spec.onRows lo hi (fun i j => α * a i j + β * Spec.one i j) a) :=
  Dense.exists_of_wp (Dense.wp_scaleAddIdentity (Dense.represents_iff.1 hA) α β hlo hhi hsc)

example : ∃ A', Dense.scaleAddIdentity (Dense.ofMat 2 exD) 2 5 0 2 [(1, 1), (0, 0)] = .ok A' ∧
    A'.getElement 1 1 = .ok 13 ∧ A'.getElement 1 0 = .ok 6 := by
  obtain ⟨A', e, h⟩ := C09_dense_scale_add_identity_partial (Dense.ofMat_rep 2 exD) 2 5
    (Nat.zero_le 2) (le_refl 2) (sc := [(1, 1), (0, 0)]) (List.Perm.swap 0 1 [])
  exact ⟨A', e, h.get 1 1 (by omega) (by omega), h.get 1 0 (by omega) (by omega)⟩

/-- **C10**, dense. -/
theorem C10_dense_scale_inplace {N lo hi : Nat} {A : Dense R} {a : Spec.Mat R}
    (hA : A.Represents N a) (c : R) (hlo : lo ≤ hi) (hhi : hi ≤ N) :
    ∃ A', Dense.scaleInplace c A lo hi = .ok A' ∧
      A'.Represents N (Spec.onRows lo hi (Spec.scale c a) a) :=
  Dense.exists_of_wp (Dense.wp_scaleInplace (Dense.represents_iff.1 hA) c hlo hhi)

theorem C10_dense_scale {N lo hi : Nat} {A B : Dense R} {a b : Spec.Mat R}
    (hA : A.Represents N a) (hB : B.Represents N b) (c : R) (hlo : lo ≤ hi) (hhi : hi ≤ N) :
    ∃ B', Dense.scale c A B lo hi = .ok B' ∧
      B'.Represents N (Spec.onRows lo hi (Spec.scale c a) a) :=
  Dense.exists_of_wp
    (Dense.wp_scale (Dense.represents_iff.1 hA) (Dense.represents_iff.1 hB) c hlo hhi)

theorem C10_dense_scale_new {N lo hi : Nat} {A : Dense R} {a : Spec.Mat R}
    (hA : A.Represents N a) (c : R) (hlo : lo ≤ hi) (hhi : hi ≤ N) (junk : Nat → R) :
    ∃ B', Dense.scaleNew c A lo hi junk = .ok B' ∧
      B'.Represents N (Spec.onRows lo hi (Spec.scale c a) a) :=
  Dense.exists_of_wp (Dense.wp_scaleNew (Dense.represents_iff.1 hA) c hlo hhi junk)

/-- **C11**, dense: elements above the threshold are kept, all others are zero. -/
theorem C11_dense_threshold {N lo hi : Nat} {A : Dense R} {a : Spec.Mat R}
    (hA : A.Represents N a) (big : R → Bool) {sc : Sched} (hsc : IsSched (lo * N) (hi * N) sc)
    (hhi : hi ≤ N) :
    ∃ A', Dense.threshold A big sc = .ok A' ∧
      A'.Represents N (Spec.onRows lo hi (Spec.threshold big a) a) :=
  Dense.exists_of_wp (Dense.wp_threshold (Dense.represents_iff.1 hA) big hsc hhi)

theorem C11_dense_threshold_new {N : Nat} {A : Dense R} {a : Spec.Mat R}
    (hA : A.Represents N a) (big : R → Bool) {sc : Sched} (hsc : IsSched (0 * N) (N * N) sc) :
    ∃ A', Dense.thresholdNew A big sc = .ok A' ∧ A'.Represents N (Spec.threshold big a) := by
  obtain ⟨A', e, h⟩ :=
    Dense.exists_of_wp (Dense.wp_thresholdNew (Dense.represents_iff.1 hA) big hsc (le_refl N))
  exact ⟨A', e, h.congr (Spec.onRows_all N (Spec.threshold big a) (fun _ _ => 0))⟩

example : ∃ A', Dense.threshold (Dense.ofMat 2 exD) (fun x => decide (x > 2))
    [(0, 3), (1, 1), (0, 0), (1, 2)] = .ok A' ∧ A'.getElement 0 1 = .ok 0 ∧
      A'.getElement 1 0 = .ok 3 := by
  obtain ⟨A', e, h⟩ := C11_dense_threshold (Dense.ofMat_rep 2 exD) (fun x => decide (x > 2))
    (lo := 0) (hi := 2) (sc := [(0, 3), (1, 1), (0, 0), (1, 2)]) (by unfold IsSched; decide) (le_refl 2)
  exact ⟨A', e, h.get 0 1 (by omega) (by omega), h.get 1 0 (by omega) (by omega)⟩

/-- **C35**, dense: `C(i,j) = A(i,j) B(i,j)` (no threshold is applied). -/
theorem C35_dense_element_multiply_partial {N lo hi : Nat} {A B C : Dense R} {a b c : Spec.Mat R}
    (hA : A.Represents N a) (hB : B.Represents N b) (hC : C.Represents N c) {sc : Sched}
    (hsc : IsSched (lo * N) (hi * N) sc) (hhi : hi ≤ N) :
    ∃ C', Dense.elementMultiply A B C sc = .ok C' ∧
      C'.Represents N (Spec.onRows lo hi (fun i j => a i j * b i j) c) :=
  Dense.exists_of_wp (Dense.wp_elementMultiply (Dense.represents_iff.1 hA)
    (Dense.represents_iff.1 hB) (Dense.represents_iff.1 hC) hsc hhi)

/-! ## C12, C13, C14, C16 -/

variable [DecidableEq R]

/-- **C14**, dense: `C := alpha A B + beta C`, also for `A` and `B` the same matrix.  No threshold
is applied (`bml_multiply.c` 38-39). -/
theorem C14_dense_multiply_partial {N : Nat} (hN : 0 < N) {A B C : Dense R} {a b c : Spec.Mat R}
    (hA : A.Represents N a) (hB : B.Represents N b) (hC : C.Represents N c) (α β : R) :
    ∃ C', Dense.multiply A B C α β = .ok C' ∧
      C'.Represents N (fun i j => α * Spec.mul N a b i j + β * c i j) :=
  Dense.exists_of_wp (Dense.wp_multiply hN (Dense.represents_iff.1 hA)
    (Dense.represents_iff.1 hB) (Dense.represents_iff.1 hC) α β)

/-- **C12**, dense. -/
theorem C12_dense_multiply_AB_partial {N : Nat} (hN : 0 < N) {A B C : Dense R} {a b c : Spec.Mat R}
    (hA : A.Represents N a) (hB : B.Represents N b) (hC : C.Represents N c) :
    ∃ C', Dense.multiplyAB A B C = .ok C' ∧ C'.Represents N (Spec.mul N a b) := by
  obtain ⟨C', e, h⟩ := C14_dense_multiply_partial hN hA hB hC 1 0
  exact ⟨C', e, h.congr fun i j _ _ => by simp⟩

/-- **C13**, dense: the square, its trace and the trace of `X`, for any schedules of the two
traces. -/
theorem C13_dense_x2_partial {N : Nat} (hN : 0 < N) {X X2 : Dense R} {x c : Spec.Mat R}
    (hX : X.Represents N x) (hC : X2.Represents N c) {sc sc' : Sched} (hsc : IsSched 0 N sc)
    (hsc' : IsSched 0 N sc') :
    ∃ r, Dense.multiplyX2 X X2 sc sc' = .ok r ∧ r.1.Represents N (Spec.mul N x x) ∧
      r.2.1 = Spec.tr N x ∧ r.2.2 = Spec.tr N (Spec.mul N x x) := by
  obtain ⟨r, e, h1, h2, h3⟩ := Res.wp_exists (Dense.wp_multiplyX2 (E := False) hN
    (Dense.represents_iff.1 hX) (Dense.represents_iff.1 hC) (le_refl N) hsc hsc')
  rw [← Finset.range_eq_Ico] at h2 h3
  exact ⟨r, e, Dense.represents_iff.2 h1, h2, h3⟩

/-- **C16 for the dense format**: `bml_multiply_AB` with threshold adjustment terminates, but
stores the transpose of the product. -/
theorem C16_dense_adjust_value {N : Nat} (hN : 0 < N) {A B C : Dense R} {a b c : Spec.Mat R}
    (hA : A.Represents N a) (hB : B.Represents N b) (hC : C.Represents N c) :
    ∃ C', Dense.multiplyAdjustAB A B C = .ok C' ∧
      C'.Represents N (Spec.transpose (Spec.mul N a b)) :=
  Dense.exists_of_wp (Dense.wp_multiplyAdjustAB hN (Dense.represents_iff.1 hA)
    (Dense.represents_iff.1 hB) (Dense.represents_iff.1 hC))

/-- The result is not the product: for `[[1,2],[3,4]]` squared, element `(0,1)` is 15 and not
10. -/
theorem C16_dense_adjust_witness :
    ∃ C', Dense.multiplyAdjustAB (Dense.ofMat 2 exD) (Dense.ofMat 2 exD) (Dense.zeroMatrix 2) =
      .ok C' ∧ C'.getElement 0 1 = .ok 15 ∧ Spec.mul 2 exD exD 0 1 = 10 := by
  obtain ⟨C', e, h⟩ := C16_dense_adjust_value (by omega) (Dense.ofMat_rep 2 exD)
    (Dense.ofMat_rep 2 exD) (C32_dense_zero 2)
  exact ⟨C', e, h.get 0 1 (by omega) (by omega), by decide⟩

/-- A matrix without rows is rejected by the argument checks of the product. -/
theorem C14_dense_empty (α β : R) :
    Dense.multiply (Dense.zeroMatrix 0) (Dense.zeroMatrix 0) (Dense.zeroMatrix 0) α β = .error := by
  rfl

example : ∃ C', Dense.multiply (Dense.ofMat 2 exD) (Dense.ofMat 2 exD) (Dense.ofMat 2 exD) 2 1 =
    .ok C' ∧ C'.getElement 0 1 = .ok 22 := by
  obtain ⟨C', e, h⟩ := C14_dense_multiply_partial (by omega) (Dense.ofMat_rep 2 exD)
    (Dense.ofMat_rep 2 exD) (Dense.ofMat_rep 2 exD) 2 1
  exact ⟨C', e, (h.get 0 1 (by omega) (by omega)).trans (by decide)⟩

end Arith

end Bml.Props
