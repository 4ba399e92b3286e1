import Verif.Memory.Program
import Verif.Wlp

/-!
# C85: computing calls leave no memory behind

`Spec.Leaves c before after`: whatever else is allocated, the call `c` ends well, and what is allocated
afterwards is what was before, with the blocks `before` (of its operands) replaced by the blocks `after`
(of its operands and its result).  `Spec.Loses k` is the same with `k` further blocks to which nothing
points any more.  Where no block is missing or freed twice the model's calls end with `.ok`; reading
freed memory is `.ub`.
-/

namespace Bml
namespace Spec

open Memory

/-- After the call exactly the blocks `after` are in the place of the blocks `before`. -/
def Leaves {α : Type} (c : M α) (before : Multiset Blk) (after : α → Multiset Blk) : Prop :=
  ∀ others, ∃ r, c (before + others) = .ok (r, after r + others)

/-- After the call there are `k` blocks more than that. -/
def Loses {α : Type} (k : Nat) (c : M α) (before : Multiset Blk) (after : α → Multiset Blk) : Prop :=
  ∀ others, ∃ r lost, c (before + others) = .ok (r, after r + lost + others) ∧ lost.card = k

/-- In the row of a sum, no column the row already has comes after a column for which it had to grow. -/
def GrowsLast (L : List Entry) : Prop :=
  ∀ i j : Nat, i < j → L[i]? = some (.append true) → L[j]? ≠ some .found

/-- The sums a call makes are such. -/
def SafeCall : Cmd → Prop
  | .addCsr _ _ _ es => ∀ i, GrowsLast (es i)
  | .multiply _ _ _ _ _ _ es => ∀ i, GrowsLast (es i)
  | _ => True

/-- The blocks a call loses: one for an ELLPACK transpose with OpenMP, two for each row of a CSR
submatrix. -/
def lostBy : Cmd → Nat
  | .transposeEll _ true => 1
  | .extractCsr _ n _ => 2 * n
  | _ => 0

end Spec

namespace Props

open Memory _root_.Bml.Spec

variable [Allocator]

omit [Allocator] in
theorem mem_leaves {α : Type} {c : M α} {P : Multiset Blk} {after : α → Multiset Blk}
    {Q : α → Multiset Blk → Prop} (h : Owns False P c Q) (hq : ∀ a P', Q a P' → P' = after a) :
    Leaves c P after := by
  intro F
  have h1 := h F
  cases hc : c (P + F) with
  | ok r =>
    rw [hc] at h1
    obtain ⟨P', h2, h3⟩ := h1
    exact ⟨r.1, by rw [← hq _ _ h2, ← h3]⟩
  | error => rw [hc] at h1; exact h1.elim
  | ub => rw [hc] at h1; exact h1.elim

omit [Allocator] in
theorem mem_loses {α : Type} {c : M α} {P : Multiset Blk} {after : α → Multiset Blk} {k : Nat}
    {Q : α → Multiset Blk → Prop} (h : Owns False P c Q)
    (hq : ∀ a P', Q a P' → ∃ L, P' = after a + L ∧ L.card = k) : Loses k c P after := by
  intro F
  have h1 := h F
  cases hc : c (P + F) with
  | ok r =>
    rw [hc] at h1
    obtain ⟨P', h2, h3⟩ := h1
    obtain ⟨L, h4, h5⟩ := hq _ _ h2
    exact ⟨r.1, L, by rw [← h4, ← h3], h5⟩
  | error => rw [hc] at h1; exact h1.elim
  | ub => rw [hc] at h1; exact h1.elim

omit [Allocator] in
theorem mem_safe : ∀ L : List Entry, GrowsLast L → EntriesSafe L
  | [], _ => trivial
  | .found :: L, h => mem_safe L fun i j hij h1 => by
    simpa using h (i + 1) (j + 1) (by omega) (by simpa using h1)
  | .append false :: L, h => mem_safe L fun i j hij h1 => by
    simpa using h (i + 1) (j + 1) (by omega) (by simpa using h1)
  | .append true :: L, h => by
    intro e he hf
    obtain ⟨j, hj⟩ := List.mem_iff_getElem?.1 he
    exact h 0 (j + 1) (by omega) rfl (by simpa [hf] using hj)

omit [Allocator] in
theorem mem_safe_call (c : Cmd) (h : SafeCall c) : c.Safe := by
  cases c with
  | addCsr i j t es => exact fun i => mem_safe _ (h i)
  | multiply i j k p t app es => exact fun i => mem_safe _ (h i)
  | _ => trivial

omit [Allocator] in
theorem mem_lost (c : Cmd) : c.lost = lostBy c := by
  cases c with
  | transposeEll i omp => cases omp <;> rfl
  | _ => rfl

/-! ## A concrete allocator -/

omit [Allocator] in
theorem exTop_fresh (H : Multiset Blk) : H.fold max 0 + 1 ∉ H := by
  have key : ∀ H : Multiset Blk, ∀ a ∈ H, a ≤ H.fold max 0 := by
    intro H
    induction H using Multiset.induction_on with
    | empty => intro a h; simp at h
    | cons x H ih =>
      intro a h
      rw [Multiset.fold_cons_left]
      rcases Multiset.mem_cons.1 h with rfl | h
      · exact le_max_left _ _
      · exact le_trans (ih a h) (le_max_right _ _)
  intro h
  exact absurd (key H _ h) (Nat.not_succ_le_self _)

/-- An allocator that gives the address after the highest one in use. -/
@[instance_reducible] def exTop : Allocator := ⟨fun H => H.fold max 0 + 1, exTop_fresh⟩

/-! ## Constructors and release -/

/-- Every dense constructor gives a matrix and nothing else, and `bml_deallocate` takes all of it away. -/
theorem C85_dense_new_release (N : Nat) :
    Leaves (newDense N) 0 DenseO.blocks ∧ ∀ A : DenseO, Leaves A.deallocate A.blocks fun _ => 0 :=
  ⟨mem_leaves (newDense_owns N) fun _ _ h => h.1, fun A => mem_leaves A.deallocate_owns fun _ _ h => h⟩

/-- Every ELLPACK constructor gives a matrix and nothing else, and `bml_deallocate` takes it away. -/
theorem C85_ellpack_new_release (N : Nat) :
    Leaves (newEll N) 0 EllO.blocks ∧ Leaves (randomEll N) 0 EllO.blocks ∧
      ∀ A : EllO, Leaves A.deallocate A.blocks fun _ => 0 :=
  ⟨mem_leaves (newEll_owns N) fun _ _ h => h.1, mem_leaves (randomEll_owns N) fun _ _ h => h,
    fun A => mem_leaves A.deallocate_owns fun _ _ h => h⟩

/-- Every CSR constructor gives a matrix and nothing else, and `bml_deallocate` takes it away. -/
theorem C85_csr_new_release (N : Nat) :
    Leaves (newCsr N) 0 CsrO.blocks ∧ Leaves (randomCsr N) 0 CsrO.blocks ∧
      ∀ A : CsrO, Leaves A.deallocate A.blocks fun _ => 0 :=
  ⟨mem_leaves (newCsr_owns N) fun _ _ h => h.1, mem_leaves (randomCsr_owns N) fun _ _ h => h,
    fun A => mem_leaves A.deallocate_owns fun _ _ h => h⟩

/-- A CSR matrix of three rows is made and released with one other block around. -/
example : (letI := exTop; (do let A ← newCsr 3; A.deallocate : M Unit) {7}) = .ok ((), {7}) := by
  decide +kernel

/-! ## Dense calls -/

/-- Calls that give a new matrix or a new array leave their operand and the result; calls that change a
matrix leave what there was. -/
theorem C85_dense_calls (A V : DenseO) (cplx dc : Bool) :
    Leaves A.copyNew A.blocks (fun B => A.blocks + B.blocks) ∧
    Leaves A.array A.blocks (fun p => A.blocks + {p}) ∧
    Leaves A.inverse A.blocks (fun B => A.blocks + B.blocks) ∧
    Leaves A.inverseInplace A.blocks (fun _ => A.blocks) ∧
    Leaves (A.diagonalize cplx dc V) (A.blocks + V.blocks) (fun _ => A.blocks + V.blocks) ∧
    Leaves A.reorder A.blocks (fun _ => A.blocks) :=
  ⟨mem_leaves A.copyNew_owns fun _ _ h => h.1, mem_leaves A.array_owns fun _ _ h => h,
    mem_leaves A.inverse_owns fun _ _ h => h, mem_leaves A.inverseInplace_owns fun _ _ h => h,
    mem_leaves (A.diagonalize_owns cplx dc V) fun _ _ h => h, mem_leaves A.reorder_owns fun _ _ h => h⟩

/-! ## ELLPACK calls -/

/-- As `C85_dense_calls`; `N` the rows of a submatrix. -/
theorem C85_ellpack_calls (A V : EllO) (N : Nat) (cplx dc : Bool) :
    Leaves (A.newFrom N) A.blocks (fun B => A.blocks + B.blocks) ∧
    Leaves A.array A.blocks (fun p => A.blocks + {p}) ∧
    Leaves A.inverse A.blocks (fun B => A.blocks + B.blocks) ∧
    Leaves (A.diagonalize cplx dc V) (A.blocks + V.blocks) (fun _ => A.blocks + V.blocks) ∧
    Leaves A.reorder A.blocks (fun _ => A.blocks) :=
  ⟨mem_leaves (A.newFrom_owns N) fun _ _ h => h.1, mem_leaves A.array_owns fun _ _ h => h,
    mem_leaves A.inverse_owns fun _ _ h => h,
    mem_leaves (A.diagonalize_owns cplx dc V) fun _ _ h => h, mem_leaves A.reorder_owns fun _ _ h => h⟩

/-- The product `C ← αAB + βC` of three ELLPACK matrices, all values of `α` and `β`. -/
theorem C85_ellpack_multiply (A B C : EllO) (plain : Bool) :
    Leaves (A.multiply false plain B C) (A.blocks + B.blocks + C.blocks)
      (fun _ => A.blocks + B.blocks + C.blocks) :=
  mem_leaves (A.multiply_owns false plain B C fun h => absurd h (by decide)) fun _ _ h => h

/-- The square `C ← αAA + βC`: the trace `bml_multiply_x2` gives is freed. -/
theorem C85_ellpack_square (A C : EllO) (plain : Bool) :
    Leaves (A.multiply true plain A C) (A.blocks + C.blocks) (fun _ => A.blocks + C.blocks) :=
  mem_leaves (A.multiply_owns true plain A C fun _ => rfl) fun _ _ h => h

/-- Without OpenMP `bml_transpose_new` of an ELLPACK matrix leaves its operand and the result. -/
theorem C85_ellpack_transpose_partial (A : EllO) :
    Leaves (A.transposeNew false) A.blocks (fun B => A.blocks + B.blocks) := by
  refine mem_leaves (A.transposeNew_owns false) ?_
  rintro B P ⟨L, rfl, hl⟩
  rw [Multiset.card_eq_zero.1 (show L.card = 0 from hl), add_zero]

/-- With OpenMP it loses the array of locks, every time. -/
theorem C85_ellpack_transpose_leaks (A : EllO) :
    Loses 1 (A.transposeNew true) A.blocks (fun B => A.blocks + B.blocks) :=
  mem_loses (A.transposeNew_owns true) fun _ _ h => h

/-- After a transpose with OpenMP and the release of both matrices one block remains. -/
example : (letI := exTop; (do
      let A ← newEll 2
      let B ← A.transposeNew true
      A.deallocate
      B.deallocate : M Unit) 0) = .ok ((), {33}) := by
  decide +kernel

/-! ## CSR calls -/

/-- Calls with CSR matrices; `app` the elements the call appends, each with its row and whether the row had
to grow. -/
theorem C85_csr_calls (A : CsrO) (omp full : Bool) (r : Nat) (app : List (Nat × Bool))
    (hr : r < A.rows.length) (happ : ∀ x ∈ app, x.1 < A.rows.length) :
    Leaves A.copyNew A.blocks (fun B => A.blocks + B.blocks) ∧
    Leaves A.array A.blocks (fun p => A.blocks + {p}) ∧
    Leaves (A.setRow full r) A.blocks (fun A' => A'.blocks) ∧
    Leaves (A.transposeNew omp app) A.blocks (fun B => A.blocks + B.blocks) ∧
    Leaves (A.inverse app) A.blocks (fun B => A.blocks + B.blocks) :=
  ⟨mem_leaves A.copyNew_owns fun _ _ h => h.1, mem_leaves A.array_owns fun _ _ h => h,
    mem_leaves (A.setRow_owns full r hr) fun _ _ h => h.1,
    mem_leaves (A.transposeNew_owns omp app happ) fun _ _ h => h.1,
    mem_leaves (A.inverse_owns app happ) fun _ _ h => h⟩

/-- A two-row matrix in which the call appends three elements, one to a full row. -/
example : ∃ r, (letI := exTop; (do
      let A ← newCsr 2
      let B ← A.transposeNew true [(0, false), (1, true), (0, false)]
      A.deallocate
      B.deallocate : M Unit) {3}) = .ok (r, {3}) := ⟨(), by decide +kernel⟩

/-- Diagonalization where the eigenvectors fit in the caller's matrix. -/
theorem C85_csr_diagonalize (A V : CsrO) (cplx dc : Bool) (app : List (Nat × Bool))
    (happ : ∀ x ∈ app, x.1 < A.rows.length) :
    Leaves (A.diagonalize cplx dc true app V) (A.blocks + V.blocks) (fun _ => A.blocks + V.blocks) := by
  refine mem_leaves (Q := fun _ P => P = A.blocks + V.blocks) (fun F => ?_) fun _ _ h => h
  exact Res.wp_mono' (A.diagonalize_owns cplx dc true app V happ F) (fun h => absurd h (by decide))
    fun _ h => h

/-- Conversion to CSR of a dense, ELLPACK or CSR matrix. -/
theorem C85_convert_to_csr (A : DenseO) (B : EllO) (C : CsrO) (N : Nat) (full : Nat → Bool) :
    Leaves (convertCsr N A.array full) A.blocks (fun R => A.blocks + R.blocks) ∧
    Leaves (convertCsr N B.array full) B.blocks (fun R => B.blocks + R.blocks) ∧
    Leaves (convertCsr N C.array full) C.blocks (fun R => C.blocks + R.blocks) :=
  ⟨mem_leaves (convertCsr_owns N A.array_owns) fun _ _ h => h,
    mem_leaves (convertCsr_owns N B.array_owns) fun _ _ h => h,
    mem_leaves (convertCsr_owns N C.array_owns) fun _ _ h => h⟩

/-- A sum of CSR matrices, any number of threads, provided no row meets a column it already has after it
had to grow. -/
theorem C85_csr_add_partial (A B : CsrO) (threads : Nat) (es : Nat → List Entry)
    (h : ∀ i, GrowsLast (es i)) :
    Leaves (A.add threads es B) (A.blocks + B.blocks) (fun A' => A'.blocks + B.blocks) :=
  mem_leaves (A.add_owns threads es B fun i => mem_safe _ (h i)) fun _ _ h => h.1

/-- A sum in which the row grows last. -/
example : GrowsLast [.found, .append false, .found, .append true] := by
  intro i j hij h1 h2
  match i, j with
  | 0, _ => simp at h1
  | 1, _ => simp at h1
  | 2, _ => simp at h1
  | 3, j + 4 => simp at h2
  | i + 4, _ => simp at h1

example : ∃ r, (letI := exTop; (do
      let A ← newCsr 1
      let B ← newCsr 1
      let A' ← A.add 2 (fun _ => [.found, .append false, .found, .append true]) B
      A'.deallocate
      B.deallocate : M Unit) 0) = .ok (r, 0) := ⟨(), by decide +kernel⟩

omit [Allocator] in
/-- Without that the sum reads freed memory: the row grows, `realloc` moves its values, and the next
column the row already has is added to through the old pointer. -/
theorem C85_csr_add_reads_freed_memory : ∃ al : Allocator, ∃ H : Multiset Blk,
    (letI := al; (do
      let A ← newCsr 1
      let B ← newCsr 1
      let _ ← A.add 1 (fun _ => [.append true, .found]) B
      pure () : M Unit) H) = .ub :=
  ⟨exTop, 0, Res.eq_ub_of_isUb (by decide +kernel)⟩

/-- Products of three CSR matrices, under the same condition on the sum with `βC`. -/
theorem C85_csr_multiply_partial (A B C : CsrO) (plain : Bool) (threads : Nat) (app : List (Nat × Bool))
    (es : Nat → List Entry) (happ : ∀ x ∈ app, x.1 < C.rows.length) (h : ∀ i, GrowsLast (es i)) :
    Leaves (A.multiply false plain threads app es B C) (A.blocks + B.blocks + C.blocks)
      (fun C' => A.blocks + B.blocks + C'.blocks) :=
  mem_leaves (A.multiply_owns false plain threads app es B C (fun h => absurd h (by decide)) happ
    fun i => mem_safe _ (h i))
    fun _ _ h => h

/-- Squares of a CSR matrix. -/
theorem C85_csr_square_partial (A C : CsrO) (plain : Bool) (threads : Nat) (app : List (Nat × Bool))
    (es : Nat → List Entry) (happ : ∀ x ∈ app, x.1 < C.rows.length) (h : ∀ i, GrowsLast (es i)) :
    Leaves (A.multiply true plain threads app es A C) (A.blocks + C.blocks)
      (fun C' => A.blocks + C'.blocks) :=
  mem_leaves (A.multiply_owns true plain threads app es A C (fun _ => rfl) happ
    fun i => mem_safe _ (h i)) fun _ _ h => h

/-- `bml_extract_submatrix` of a CSR matrix loses two blocks for every row of the result. -/
theorem C85_csr_extract_leaks (A : CsrO) (n : Nat) (full : Nat → Bool) :
    Loses (2 * n) (A.extract n full) A.blocks (fun B => A.blocks + B.blocks) := by
  refine mem_loses (A.extract_owns n full) ?_
  rintro B P ⟨L, e, hl, _⟩
  exact ⟨L, e, hl⟩

/-- A submatrix of two rows is taken and everything released: four blocks remain. -/
example : Res.okAnd (fun r => decide (r.2 = {20, 21, 22, 23})) (letI := exTop; (do
      let A ← newCsr 3
      let B ← A.extract 2 fun _ => false
      A.deallocate
      B.deallocate : M Unit) 0) = true := by
  decide +kernel

/-! ## Programs -/

/-- What is allocated at the end of any program of these calls: the blocks of what it still holds, and as
many lost blocks as its ELLPACK transposes with OpenMP and its CSR submatrices lose.  The program may end
with an error (a released or wrong argument); it never frees a block twice or uses a freed one. -/
theorem C85_programs (p : List Cmd) (safe : ∀ c ∈ p, SafeCall c) (others : Multiset Blk) :
    run p [] others = .error ∨ ∃ held lost, run p [] others =
      .ok (held, total Obj.blocks held + lost + others) ∧ lost.card = (p.map lostBy).sum := by
  have h := run_owns p [] (fun c hc => mem_safe_call c (safe c hc)) others
  rw [show p.map Cmd.lost = p.map lostBy from List.map_congr_left fun c _ => mem_lost c] at h
  rw [show total Obj.blocks [] + others = others from zero_add _] at h
  cases hc : run p [] others with
  | ok r =>
    rw [hc] at h
    obtain ⟨P', ⟨L, h1, h2⟩, h3⟩ := h
    exact .inr ⟨r.1, L, by rw [← h1, ← h3], h2⟩
  | error => exact .inl rfl
  | ub => rw [hc] at h; exact h.elim

/-- A program that releases all it holds and takes no CSR submatrix and (with OpenMP) no ELLPACK transpose
leaves memory as it found it. -/
theorem C85_programs_leave_nothing (p : List Cmd) (safe : ∀ c ∈ p, SafeCall c)
    (clean : ∀ c ∈ p, (∀ i, c ≠ .transposeEll i true) ∧ ∀ i n full, c ≠ .extractCsr i n full)
    (others : Multiset Blk) :
    (do
      let held ← run p []
      releaseAll held : M Unit) others = .error ∨
    (do
      let held ← run p []
      releaseAll held : M Unit) others = .ok ((), others) := by
  have hz : (p.map lostBy).sum = 0 := by
    have key : ∀ q : List Cmd, (∀ c ∈ q, (∀ i, c ≠ .transposeEll i true) ∧
        ∀ i n full, c ≠ .extractCsr i n full) → (q.map lostBy).sum = 0 := by
      intro q
      induction q with
      | nil => intro _; rfl
      | cons c q ih =>
        intro h
        have h1 : lostBy c = 0 := by
          obtain ⟨g1, g2⟩ := h c (by simp)
          cases c with
          | transposeEll i omp => cases omp with
            | false => rfl
            | true => exact absurd rfl (g1 i)
          | extractCsr i n full => exact absurd rfl (g2 i n full)
          | _ => rfl
        rw [List.map_cons, List.sum_cons, h1, ih fun d hd => h d (by simp [hd])]
    exact key p clean
  rcases C85_programs p safe others with h | ⟨held, lost, h, hl⟩
  · left
    show Res.bind (run p [] others) _ = _
    rw [h]
    rfl
  · right
    rw [hz] at hl
    rw [Multiset.card_eq_zero.1 hl, add_zero] at h
    obtain ⟨r, h2⟩ := mem_leaves (releaseAll_owns (E := False) held) (after := fun _ => 0)
      (fun _ _ h => h) others
    show Res.bind (run p [] others) _ = _
    rw [h]
    show releaseAll held (total Obj.blocks held + others) = _
    rw [h2, zero_add]

/-- A program that makes, copies, converts, multiplies, inverts and releases. -/
example : (letI := exTop; (do
      let held ← run [.newDense 2, .convertToCsr 0 2 (fun _ => true), .copy 0, .newCsr 2,
        .multiply 1 2 0 false 2 [(0, true), (1, false)] (fun _ => [.append true]), .inverse 3 [],
        .array 2, .release 1] []
      releaseAll held : M Unit) {5}) = .ok ((), {5}) := by
  decide +kernel

end Props
end Bml
