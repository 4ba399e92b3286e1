import Verif.Fortran.DenseArrays
import Verif.Props.FortranAccess

/-!
# C73: import and export of Fortran arrays
-/

namespace Bml.Props

open Bml Bml.Fortran
open Bml.Elemental (Kind)

variable {R : Type} [CommRing R]

/-- The value that remains of `x` on import: the dense format keeps everything. -/
def imported (fmt : Fmt) (big : R → Bool) (x : R) : R :=
  match fmt with
  | .dense => x
  | _ => Spec.keep big x

/-- The caller gave a number of nonzeros per row where one is needed, and for ELLPACK no row has more
elements above threshold. -/
def ImportFits (fmt : Fmt) (S : Section R) (big : R → Bool) (m : Option Nat) : Prop :=
  match fmt with
  | .dense => True
  | .ellpack => ∃ M, m = some M ∧ 0 < M ∧ ∀ i, 1 ≤ i → i ≤ S.n1 →
      ((Finset.range S.n1).filter (fun j => big (S.elem i (j + 1)) = true)).card ≤ M
  | .csr => ∃ M, m = some M

/-- The array is an array of its own, or as if: its columns lie one after the other. -/
structure Contiguous (S : Section R) : Prop where
  down : S.s1 = 1
  across : S.s2 = S.n1

/-- What C finds at the position that belongs to `(i,j)` in a column-major `n × n` array. -/
def cElem (S : Section R) (i j : Nat) : R := S.passed.get (COLMAJOR i j S.n1 S.n1)

omit [CommRing R] in
theorem cElem_contiguous {S : Section R} (hc : Contiguous S) (i j : Nat) :
    cElem S i j = S.elem (i + 1) (j + 1) := by
  unfold cElem Section.passed Section.elem Section.pos COLMAJOR
  simp only
  congr 1
  rw [hc.down, hc.across]
  push_cast
  have : (S.off : Int) + ((i : Int) + 1 - 1) * 1 + ((j : Int) + 1 - 1) * (S.n1 : Int) =
      ((S.off + (i + j * S.n1) : Nat) : Int) := by push_cast; ring
  rw [this, Int.toNat_natCast]

omit [CommRing R] in
theorem passed_size {S : Section R} (hc : Contiguous S) (hv : S.Valid) (h12 : S.n1 ≤ S.n2) :
    S.n1 * S.n1 ≤ S.passed.size := by
  rcases Nat.eq_zero_or_pos S.n1 with h0 | h0
  · rw [h0]; exact Nat.zero_le _
  · have h := (hv S.n1 S.n1 h0 le_rfl h0 h12).2
    unfold Section.pos at h
    rw [hc.down, hc.across] at h
    unfold Section.passed
    simp only
    have e : (S.off : Int) + ((S.n1 : Int) - 1) * 1 + ((S.n1 : Int) - 1) * (S.n1 : Int) =
        (S.off : Int) + ((S.n1 * S.n1 : Nat) : Int) - 1 := by push_cast; ring
    rw [e] at h
    omega

/-- What the matrix becomes, whatever the layout of the array: the library reads the storage from the
first element on as if it were a column-major `n × n` array. -/
theorem import_rep (fmt : Fmt) {S : Section R} (hs : S.n1 * S.n1 ≤ S.passed.size)
    (nonzero : R → Bool) (t : Option (R → Bool)) {m : Option Nat} {sc : Sched}
    (hsc : IsSched 0 S.n1 sc)
    (hfit : match fmt with
      | .dense => True
      | .ellpack => ∃ M, m = some M ∧ 0 < M ∧ ∀ i, i < S.n1 →
          Spec.rowCount (test nonzero t) S.n1 (cElem S) i ≤ M
      | .csr => ∃ M, m = some M) :
    ∃ A, importFromDense fmt S nonzero t m sc = .ok A ∧
      A.Represents S.n1 (fun i j => imported fmt (test nonzero t) (cElem S i j)) := by
  unfold importFromDense
  cases fmt with
  | dense =>
    rw [if_neg (by simp)]
    obtain ⟨A, D', e, h, -⟩ := C06_dense_round_trip .colMajor .colMajor hs (fun _ => 0)
    simp only
    rw [e]
    exact ⟨.dense A, rfl, h⟩
  | ellpack =>
    obtain ⟨M, rfl, hM, hf⟩ := hfit
    rw [if_neg (by simp)]
    obtain ⟨A, e, -, h⟩ := C06_import_partial hM (order := .colMajor) hs (test nonzero t) hsc hf
    simp only [Option.getD_some]
    rw [e]
    exact ⟨.ellpack A, rfl, h⟩
  | csr =>
    obtain ⟨M, rfl⟩ := hfit
    rw [if_neg (by simp)]
    obtain ⟨A, D', e, h, -⟩ := C06_csr_round_trip .colMajor .colMajor hs (test nonzero t) M hsc hsc
    simp only [Option.getD_some]
    rw [e]
    exact ⟨.csr A, rfl, h⟩

theorem import_contiguous (fmt : Fmt) {S : Section R} (hc : Contiguous S) (hv : S.Valid)
    (h12 : S.n1 ≤ S.n2) (nonzero : R → Bool) (t : Option (R → Bool)) {m : Option Nat} {sc : Sched}
    (hsc : IsSched 0 S.n1 sc) (hfit : ImportFits fmt S (test nonzero t) m) :
    ∃ A, importFromDense fmt S nonzero t m sc = .ok A ∧
      A.Represents S.n1 (fun i j => imported fmt (test nonzero t) (S.elem (i + 1) (j + 1))) := by
  have hce : cElem S = fun i j => S.elem (i + 1) (j + 1) :=
    funext fun i => funext fun j => cElem_contiguous hc i j
  have := import_rep fmt (passed_size hc hv h12) nonzero t (m := m) hsc (by
    cases fmt with
    | dense => trivial
    | ellpack =>
      obtain ⟨M, e, hM, hf⟩ := hfit
      refine ⟨M, e, hM, fun i hi => ?_⟩
      rw [hce]
      exact hf (i + 1) (by omega) (by omega)
    | csr => exact hfit)
  rwa [hce] at this

/-- **C73 (partial)** `bml_import_from_dense` of an array whose columns lie one after the other, with
at least as many columns as rows: element `(i,j)` of the matrix is element `(i,j)` of the array, or
zero if that is not above threshold.  Partial: not for other arrays, see below. -/
theorem C73_import_partial (fmt : Fmt) {S : Section R} (hc : Contiguous S) (hv : S.Valid)
    (h12 : S.n1 ≤ S.n2) (nonzero : R → Bool) (t : Option (R → Bool)) {m : Option Nat} {sc : Sched}
    (hsc : IsSched 0 S.n1 sc) (hfit : ImportFits fmt S (test nonzero t) m) (f : Kind)
    (junk junk' : Nat → R) :
    ∃ A, importFromDense fmt S nonzero t m sc = .ok A ∧ A.n = S.n1 ∧
      ∀ i, 1 ≤ i → i ≤ S.n1 → ∃ r, getRow f f junk junk' A i = .ok r ∧ r.size = S.n1 ∧
        ∀ j, 1 ≤ j → j ≤ S.n1 → at1 r j = imported fmt (test nonzero t) (S.elem i j) := by
  obtain ⟨A, e, h⟩ := import_contiguous fmt hc hv h12 nonzero t hsc hfit
  refine ⟨A, e, h.n_eq, fun i h1 h2 => ?_⟩
  obtain ⟨r, e', hr, hg⟩ := C72_get_row h f junk junk' h1 h2
  refine ⟨r, e', hr, fun j h3 h4 => ?_⟩
  rw [hg j h3 h4]
  unfold elem1
  beta_reduce
  rw [Nat.sub_add_cancel h1, Nat.sub_add_cancel h3]

/-- `bml_export_to_dense` on the first process. -/
theorem export_rep {N : Nat} {A : Mat R} {a : Spec.Mat R} (hA : A.Represents N a) (f : Kind)
    {sc : Sched} (hsc : IsSched 0 N sc) (junk junk' : Nat → R) (old : Option (Section R)) :
    ∃ S, exportToDense f f 0 A sc junk junk' old = .ok (some S, 0) ∧ Contiguous S ∧ S.Valid ∧
      S.n1 = N ∧ S.n2 = N ∧ ∀ i j, 1 ≤ i → i ≤ N → 1 ≤ j → j ≤ N → S.elem i j = elem1 a i j := by
  have key : ∃ x, exportC A sc junk = .ok x ∧ x.size = N * N ∧
      ∀ i j, i < N → j < N → x.get (Order.colMajor.addr i j N) = a i j := by
    cases A with
    | dense A =>
      exact Res.wp_exists (Dense.wp_export (E := False) (Dense.represents_iff.1 hA) .colMajor
        junk)
    | ellpack A => exact C06_export hA .colMajor hsc
    | csr A =>
      exact Res.wp_exists (Csr.wp_exportDense (E := False) (Csr.represents_iff.1 hA) .colMajor hsc)
  obtain ⟨x, e, hx, hg⟩ := key
  obtain ⟨y, e', hy, hg'⟩ := copyOut_ok junk' (n := N * N) (x := x) (by omega)
  refine ⟨Section.whole y N N, ?_, ⟨rfl, rfl⟩, ?_, rfl, rfl, ?_⟩
  · unfold exportToDense
    rw [typed_same, e, Res.bind_ok, if_pos rfl, hA.n_eq, e']
    rfl
  · intro i j h1 h2 h3 h4
    have hlt : (i - 1) + (j - 1) * N < N * N := by
      have : (j - 1) * N + (i - 1) < N * N := addr_lt (by simp only [Section.whole] at h4; omega)
        (by simp only [Section.whole] at h2; omega)
      omega
    have e2 : (Section.whole y N N).pos i j = (((i - 1) + (j - 1) * N : Nat) : Int) := by
      unfold Section.pos Section.whole
      push_cast [h1, h3]
      ring
    rw [e2]
    have : (Section.whole y N N).mem.size = N * N := hy
    rw [this]
    exact ⟨Int.natCast_nonneg _, by exact_mod_cast hlt⟩
  · intro i j h1 h2 h3 h4
    have hlt : (i - 1) + (j - 1) * N < N * N := by
      have : (j - 1) * N + (i - 1) < N * N := addr_lt (by omega) (by omega)
      omega
    have e2 : (Section.whole y N N).pos i j = (((i - 1) + (j - 1) * N : Nat) : Int) := by
      unfold Section.pos Section.whole
      push_cast [h1, h3]
      ring
    unfold Section.elem
    rw [e2, Int.toNat_natCast]
    have h5 := hg (i - 1) (j - 1) (by omega) (by omega)
    exact (hg' _ hlt).trans h5

/-- **C73 (partial)** On the first process `bml_export_to_dense` leaves in the caller's variable, what
it held before notwithstanding, an `N × N` array with the elements of the matrix, and frees the
intermediate array.  Partial: see `C73_other_processes`. -/
theorem C73_export_partial {N : Nat} {A : Mat R} {a : Spec.Mat R} (hA : A.Represents N a) (f : Kind)
    {sc : Sched} (hsc : IsSched 0 N sc) (junk junk' : Nat → R) (old : Option (Section R)) :
    ∃ S, exportToDense f f 0 A sc junk junk' old = .ok (some S, 0) ∧ S.n1 = N ∧ S.n2 = N ∧
      ∀ i j, 1 ≤ i → i ≤ N → 1 ≤ j → j ≤ N → S.elem i j = elem1 a i j := by
  obtain ⟨S, e, -, -, h⟩ := export_rep hA f hsc junk junk' old
  exact ⟨S, e, h⟩

/-- **C73 (partial)** What is imported and exported again is what there was, except for the elements
not above threshold. -/
theorem C73_round_trip_partial (fmt : Fmt) {S : Section R} (hc : Contiguous S) (hv : S.Valid)
    (h12 : S.n1 ≤ S.n2) (nonzero : R → Bool) (t : Option (R → Bool)) {m : Option Nat}
    {sc sc' : Sched} (hsc : IsSched 0 S.n1 sc) (hsc' : IsSched 0 S.n1 sc')
    (hfit : ImportFits fmt S (test nonzero t) m) (f : Kind) (junk junk' : Nat → R)
    (old : Option (Section R)) :
    ∃ A S', importFromDense fmt S nonzero t m sc = .ok A ∧
      exportToDense f f 0 A sc' junk junk' old = .ok (some S', 0) ∧ S'.n1 = S.n1 ∧ S'.n2 = S.n1 ∧
      ∀ i j, 1 ≤ i → i ≤ S.n1 → 1 ≤ j → j ≤ S.n1 →
        S'.elem i j = imported fmt (test nonzero t) (S.elem i j) := by
  obtain ⟨A, e, h⟩ := import_contiguous fmt hc hv h12 nonzero t hsc hfit
  obtain ⟨S', e', -, -, h1, h2, h3⟩ := export_rep h f hsc' junk junk' old
  refine ⟨A, S', e, e', h1, h2, fun i j g1 g2 g3 g4 => ?_⟩
  rw [h3 i j g1 g2 g3 g4]
  unfold elem1
  beta_reduce
  rw [Nat.sub_add_cancel g1, Nat.sub_add_cancel g3]

/-- The other way round: what is exported can be imported again, and gives the same matrix if no
element is lost to the threshold. -/
theorem C73_export_import_partial {N : Nat} {A : Mat R} {a : Spec.Mat R} (hA : A.Represents N a)
    (f : Kind) {sc sc' : Sched} (hsc : IsSched 0 N sc) (hsc' : IsSched 0 N sc')
    (junk junk' : Nat → R) (old : Option (Section R)) (fmt : Fmt) {nonzero : R → Bool}
    (hz : ∀ x, nonzero x = true ↔ x ≠ 0) {M : Nat} (hM : 0 < M) (hNM : N ≤ M) :
    ∃ S B, exportToDense f f 0 A sc junk junk' old = .ok (some S, 0) ∧
      importFromDense fmt S nonzero none (some M) sc' = .ok B ∧ B.Represents N a := by
  obtain ⟨S, e, hc, hv, h1, h2, h3⟩ := export_rep hA f hsc junk junk' old
  subst h1
  obtain ⟨B, e', h⟩ := import_contiguous fmt hc hv (by omega) nonzero none (m := some M) hsc' (by
    cases fmt with
    | dense => trivial
    | ellpack =>
      exact ⟨M, rfl, hM, fun i _ _ => ((Finset.card_filter_le _ _).trans (by simp)).trans hNM⟩
    | csr => exact ⟨M, rfl⟩)
  refine ⟨S, B, e, e', ?_⟩
  have hk : ∀ x, imported fmt (test nonzero none) x = x := fun x => by
    have : Spec.keep nonzero x = x := by
      unfold Spec.keep
      by_cases hx : nonzero x = true
      · rw [if_pos hx]
      · rw [if_neg hx]
        by_contra hne
        exact hx ((hz x).2 (Ne.symm hne))
    cases fmt
    · rfl
    · exact this
    · exact this
  have heq : ∀ i j, i < S.n1 → j < S.n1 →
      imported fmt (test nonzero none) (S.elem (i + 1) (j + 1)) = a i j := fun i j hi hj => by
    rw [hk, h3 _ _ (by omega) (by omega) (by omega) (by omega)]
    rfl
  cases B with
  | dense B => exact ⟨h.dim, h.size, fun i j hi hj => (h.get i j hi hj).trans (by rw [heq i j hi hj])⟩
  | ellpack B => exact ⟨h.wf, h.dim, fun i j hi hj => (h.get i j hi hj).trans (by rw [heq i j hi hj])⟩
  | csr B => exact ⟨h.wf, h.dim, fun i j hi hj => (h.get i j hi hj).trans (by rw [heq i j hi hj])⟩

/-! ## Where it fails -/

/-- **C73 fails** for sections of larger arrays.  Let `p` be an array with more than `n` rows and
import `p(1:n, 1:n)`.  Then element `(1,2)` of the matrix is `p(n+1,1)`, which does not even belong
to the section; and generally element `(i,j)` is the element of `p` at place `i + (j-1)·n` in the
storage. -/
theorem C73_section_wrong {x : Arr R} {ld n2 n : Nat} (hx : x.size = ld * n2) (hn : 2 ≤ n)
    (hld : n < ld) (hn2 : n ≤ n2) (nonzero : R → Bool) {sc : Sched} (hsc : IsSched 0 n sc)
    (f : Kind) (junk junk' : Nat → R) :
    ∃ A, importFromDense .dense ⟨x, 0, 1, ld, n, n⟩ nonzero none none sc = .ok A ∧
      ∃ r, getRow f f junk junk' A (1 : Nat) = .ok r ∧
        at1 r 2 = (Section.whole x ld n2).elem (n + 1) 1 := by
  have hs : n * n ≤ x.size := by
    rw [hx]
    exact Nat.mul_le_mul (by omega) hn2
  obtain ⟨A, e, h⟩ := import_rep (R := R) .dense (S := ⟨x, 0, 1, ld, n, n⟩) hs nonzero none
    (m := none) hsc trivial
  obtain ⟨r, e', hr, hg⟩ := C72_get_row h f junk junk' (i := 1) le_rfl (by simp only; omega)
  refine ⟨A, e, r, e', ?_⟩
  rw [hg 2 (by omega) (by simp only; omega)]
  unfold elem1 imported cElem Section.passed Section.elem Section.pos Section.whole COLMAJOR
  simp only
  congr 1
  push_cast
  omega

/-- The section of `C73_section_wrong` is `p(1:n, 1:n)`. -/
theorem C73_section_is (x : Arr R) {ld n2 n : Nat} (i j : Nat) :
    (⟨x, 0, 1, ld, n, n⟩ : Section R).elem i j = (Section.whole x ld n2).elem i j := rfl

/-- **C73 fails** for arrays with more rows than columns: the import into the dense format reads
beyond the array, it does not come back with a matrix. -/
theorem C73_tall_undefined {x : Arr R} {n1 n2 : Nat} (hx : x.size = n1 * n2) (h : n2 < n1)
    (nonzero : R → Bool) (t : Option (R → Bool)) (m : Option Nat) (sc : Sched) (A : Mat R) :
    importFromDense .dense (Section.whole x n1 n2) nonzero t m sc ≠ .ok A := by
  unfold importFromDense
  rw [if_neg (by simp)]
  simp only
  have hw : (Dense.importDense .colMajor (Section.whole x n1 n2).n1
      (Section.whole x n1 n2).passed).wlp fun _ => False := by
    unfold Dense.importDense
    simp only [Section.whole]
    rw [Res.wlp_bind]
    refine Res.wlp_mono (wlp_loop (fun k (_ : Arr R) => k = 0) rfl fun k hk s hk0 => ?_)
      fun _ h0 => absurd h0 (by omega)
    subst hk0
    refine Res.wlp_mono (wlp_loop (fun k (_ : Arr R) => k ≤ n2) (Nat.zero_le _) fun j hj s hj0 => ?_)
      fun _ h0 => absurd h0 (by omega)
    rw [Res.wlp_bind]
    intro v hv
    unfold Arr.read at hv
    split at hv
    · rename_i hlt
      have hlt' : 0 + j * n1 < n1 * n2 := by
        have : (Section.passed ⟨x, 0, 1, n1, n1, n2⟩).size = n1 * n2 := hx
        rw [this] at hlt
        exact hlt
      have : j < n2 := by
        by_contra hc
        have : n2 * n1 ≤ j * n1 := Nat.mul_le_mul_right _ (by omega)
        rw [Nat.mul_comm n2 n1] at this
        omega
      intro _ _
      exact this
    · cases hv
  intro e
  cases e1 : Dense.importDense .colMajor (Section.whole x n1 n2).n1
      (Section.whole x n1 n2).passed with
  | ok B => exact hw B e1
  | error => rw [e1] at e; cases e
  | ub => rw [e1] at e; cases e

/-- **C73** Without the number of nonzeros per row, sparse imports stop the program. -/
theorem C73_missing_m (fmt : Fmt) (hf : fmt ≠ .dense) (S : Section R) (nonzero : R → Bool)
    (t : Option (R → Bool)) (sc : Sched) : importFromDense fmt S nonzero t none sc = .error :=
  if_pos ⟨hf, rfl⟩

/-- **C73 fails** on the other processes: although every process holds the whole matrix,
`bml_export_to_dense` leaves the caller's variable as it was, allocated or not, and the exported array
is never freed. -/
theorem C73_other_processes {N : Nat} {A : Mat R} {a : Spec.Mat R} (hA : A.Represents N a) (f : Kind)
    {sc : Sched} (hsc : IsSched 0 N sc) (junk junk' : Nat → R) (old : Option (Section R)) {rank : Nat}
    (hr : rank ≠ 0) : exportToDense f f rank A sc junk junk' old = .ok (old, 1) := by
  obtain ⟨S, e, -⟩ := export_rep hA f hsc junk junk' old
  unfold exportToDense at e ⊢
  rw [typed_same] at e ⊢
  cases e1 : exportC A sc junk with
  | ok x => rw [Res.bind_ok, if_neg hr]; rfl
  | error => rw [e1] at e; cases e
  | ub => rw [e1] at e; cases e

/-! ## The hypotheses are met -/

/-- The array `[[1,2],[3,4]]`, and the same with a third column. -/
def exF2 : Section Int := Section.whole ⟨4, fun q => [1, 3, 2, 4].getD q 0⟩ 2 2

theorem exF2_ok : Contiguous exF2 ∧ exF2.Valid := by
  refine ⟨⟨rfl, rfl⟩, fun i j h1 h2 h3 h4 => ?_⟩
  have h2' : i ≤ 2 := h2
  have h4' : j ≤ 2 := h4
  rcases (by omega : i = 1 ∨ i = 2) with rfl | rfl <;> rcases (by omega : j = 1 ∨ j = 2) with rfl | rfl <;>
    decide

example : ∃ A, importFromDense .ellpack exF2 (fun x => decide (x ≠ 0)) (some exBig) (some 2)
      (seqSched 0 2) = .ok A ∧ A.n = 2 ∧
    ∀ i : Nat, 1 ≤ i → i ≤ 2 → ∃ r, getRow .doubleReal .doubleReal (fun _ => 0) (fun _ => 0) A i =
      .ok r ∧ r.size = 2 ∧ ∀ j, 1 ≤ j → j ≤ 2 → at1 r j = Spec.keep exBig (exF2.elem i j) :=
  C73_import_partial .ellpack exF2_ok.1 exF2_ok.2 (by decide) _ _ (isSched_seq 0 2)
    ⟨2, rfl, by decide, fun _ _ _ => (Finset.card_filter_le _ _).trans (by simp [exF2, Section.whole])⟩
    .doubleReal _ _

/-- `p(1:2,1:2)` of the array `p = [[1,2,3],[4,5,6],[7,8,9]]` is imported as `[[1,7],[4,2]]`. -/
example : ∃ A, importFromDense .dense ⟨⟨9, fun q => [1, 4, 7, 2, 5, 8, 3, 6, 9].getD q 0⟩, 0, 1, 3, 2,
      2⟩ (fun x : Int => decide (x ≠ 0)) none none (seqSched 0 2) = .ok A ∧
    ∃ r, getRow .doubleReal .doubleReal (fun _ => 0) (fun _ => 0) A (1 : Nat) = .ok r ∧
      at1 r 2 = 7 :=
  C73_section_wrong (x := ⟨9, fun q => [1, 4, 7, 2, 5, 8, 3, 6, 9].getD q 0⟩) (ld := 3) (n2 := 3)
    rfl (by decide) (by decide) (by decide) _ (isSched_seq 0 2) .doubleReal _ _

end Bml.Props
