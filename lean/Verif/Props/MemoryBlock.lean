import Verif.Memory.BlockProof
import Verif.Props.Memory

/-!
# C85 for block-ELLPACK matrices

The blocks of a matrix are those `bml_deallocate` frees.  `n i` is the number of submatrices row `i` of a
result has.
-/

namespace Bml
namespace Spec

open Memory

/-- The pointers of a matrix that are not in use are `NULL`, as the constructors leave them. -/
def Ready (A : BlkO) : Prop := ∀ r ∈ A.rows, ∀ q ∈ r.rest, q = none

/-- There are pointers for `n i` submatrices in row `i`. -/
def Fits (A : BlkO) (n : Nat → Nat) : Prop :=
  ∀ (i : Nat) (r : BRow), A.rows[i]? = some r → n i ≤ r.used.length + r.rest.length

/-- No row has more submatrices than the result is to have. -/
def Keeps (A : BlkO) (n : Nat → Nat) : Prop :=
  ∀ (i : Nat) (r : BRow), A.rows[i]? = some r → r.used.length ≤ n i

/-- By how many submatrices the rows shrink, altogether, when `n i` are to be in row `i`. -/
def dropped (A : BlkO) (n : Nat → Nat) : Nat := (A.rows.zipIdx.map fun x => x.1.used.length - n x.2).sum

/-- The number of submatrices of a matrix. -/
def submatrices (A : BlkO) : Nat := (A.rows.map fun r => r.used.length).sum

end Spec

namespace Props

open Memory _root_.Bml.Spec

theorem blk_sum (f : Nat → BRow → Nat) : ∀ (L : List BRow) (i : Nat),
    sumRows f i L = ((L.zipIdx i).map fun x => f x.2 x.1).sum
  | [], _ => rfl
  | r :: L, i => by
    show f i r + sumRows f (i + 1) L = _
    rw [blk_sum f L (i + 1)]
    rfl

theorem blk_dropped (A : BlkO) (n : Nat → Nat) : A.shrink n = dropped A n := blk_sum _ _ _

theorem blk_stored (A : BlkO) : A.count = submatrices A := by
  show sumRows _ 0 A.rows = _
  rw [blk_sum, submatrices]
  congr 1
  have : ∀ (L : List BRow) (i : Nat), (L.zipIdx i).map (fun x => x.1.used.length) =
      L.map fun r => r.used.length := by
    intro L
    induction L with
    | nil => intro i; rfl
    | cons r L ih => intro i; simp [List.zipIdx_cons, ih (i + 1)]
  exact this A.rows 0

theorem blk_clean {A : BlkO} (h : Ready A) : A.Clean :=
  fun _ r hk => h r (List.mem_of_getElem? hk)

theorem blk_ready {A : BlkO} (h : A.Clean) : Ready A := by
  intro r hr
  obtain ⟨k, hk⟩ := List.mem_iff_getElem?.1 hr
  exact h k r hk

theorem blk_room {A : BlkO} {n : Nat → Nat} (h : Fits A n) : A.Room n := by
  intro k r hk
  have := h k r hk
  simpa [BRow.ptrs] using this

theorem blk_none {A : BlkO} {n : Nat → Nat} (h : Keeps A n) : A.shrink n = 0 := by
  refine (sumRows_congr (g := fun _ _ => 0) A.rows 0 fun k r hk => ?_).trans (sumRows_zero 0 _)
  have := h k r hk
  rw [Nat.zero_add]
  exact Nat.sub_eq_zero_of_le this

/-- A call that loses nothing. -/
theorem blk_leaves {α : Type} {c : M α} {P : Multiset Blk} {after : α → Multiset Blk} {k : Nat}
    (h : Owns False P c fun a P' => ∃ X, P' = after a + X ∧ X.card = k) (hk : k = 0) : Leaves c P after := by
  refine mem_leaves h ?_
  rintro a P' ⟨X, rfl, hx⟩
  rw [hk, Multiset.card_eq_zero] at hx
  rw [hx, add_zero]

variable [Allocator]

/-! ## Constructors and release -/

/-- Every block-ELLPACK constructor gives a matrix and nothing else, with all other pointers `NULL`, and
`bml_deallocate` takes all of it away. -/
theorem C85_ellblock_new_release (N NB MB : Nat) (n : Nat → Nat) (hn : ∀ i < NB, n i ≤ MB) :
    Leaves (newBlk N NB MB) 0 BlkO.blocks ∧ Leaves (fullBlk N NB MB n) 0 BlkO.blocks ∧
      (∀ H r, fullBlk N NB MB n H = .ok r → Ready r.1) ∧
      ∀ A : BlkO, Leaves A.deallocate A.blocks fun _ => 0 := by
  refine ⟨mem_leaves (newBlk_owns N NB MB) fun _ _ h => h.1,
    mem_leaves (fullBlk_owns N NB MB n hn) fun _ _ h => h.1, ?_,
    fun A => mem_leaves A.deallocate_owns fun _ _ h => h⟩
  intro H r hr
  have h := fullBlk_owns (E := False) N NB MB n hn H
  rw [zero_add, hr] at h
  obtain ⟨P', h1, _⟩ := h
  exact blk_ready h1.2.2.1

/-- A matrix with 1 + 2 submatrices is made and released. -/
example : (letI := exTop; (do let A ← fullBlk 4 2 2 (fun i => i + 1); A.deallocate : M Unit) {7}) =
    .ok ((), {7}) := by
  decide +kernel

/-! ## Calls that lose nothing -/

/-- Calls that give a new matrix or a new array leave their operand and the result; `bml_clear` and
`bml_threshold` free the submatrices they remove. -/
theorem C85_ellblock_calls (A B : BlkO) (N NB MB : Nat) (n : Nat → Nat) (keep : Nat → Blk → Bool)
    (hn : ∀ i < NB, n i ≤ MB) (hA : Ready A) :
    Leaves (A.newFrom N NB MB n) A.blocks (fun R => A.blocks + R.blocks) ∧
    Leaves A.array A.blocks (fun p => A.blocks + {p}) ∧
    Leaves A.gershgorin A.blocks (fun p => A.blocks + {p}) ∧
    Leaves (A.sums B) (A.blocks + B.blocks) (fun _ => A.blocks + B.blocks) ∧
    Leaves A.clear A.blocks (fun A' => A'.blocks) ∧
    Leaves (A.threshold keep) A.blocks (fun A' => A'.blocks) :=
  ⟨mem_leaves (A.newFrom_owns N NB MB n hn) fun _ _ h => h.1, mem_leaves A.array_owns fun _ _ h => h,
    mem_leaves A.gershgorin_owns fun _ _ h => h, mem_leaves (A.sums_owns B) fun _ _ h => h,
    mem_leaves A.clear_owns fun _ _ h => h.1,
    mem_leaves (A.threshold_owns keep (blk_clean hA)) fun _ _ h => h.1⟩

/-- The inverse. -/
theorem C85_ellblock_inverse (A : BlkO) (n : Nat → Nat) (hn : ∀ i < A.rows.length, n i ≤ A.MB) :
    Leaves (A.inverse n) A.blocks (fun B => A.blocks + B.blocks) :=
  mem_leaves (A.inverse_owns n hn) fun _ _ h => h

/-- `bml_multiply_x2`. -/
theorem C85_ellblock_x2 (X X2 : BlkO) (n : Nat → Nat) (hn : Fits X2 n) :
    Leaves (X.x2 X2 n) (X.blocks + X2.blocks) (fun r => X.blocks + r.2.blocks + {r.1}) :=
  mem_leaves (X.x2_owns X2 n (blk_room hn)) fun _ _ h => h

/-! ## Calls that store over a matrix -/

/-- Sum, copy, sum with the identity and diagonalization lose nothing where no row of the matrix they write
to shrinks. -/
theorem C85_ellblock_store_partial (A B : BlkO) (one n : Nat → Nat) (cplx dc : Bool) (hA : Ready A)
    (hr : Fits A n) (hk : Keeps A n) (h1 : ∀ i < A.rows.length, one i ≤ A.MB)
    (hn : ∀ i < B.rows.length, n i ≤ B.MB) :
    Leaves (A.add B n) (A.blocks + B.blocks) (fun A' => A'.blocks + B.blocks) ∧
    Leaves (B.copy A n) (B.blocks + A.blocks) (fun A' => B.blocks + A'.blocks) ∧
    Leaves (A.addIdentity one n) A.blocks (fun A' => A'.blocks) ∧
    Leaves (B.diagonalize cplx dc A n) (B.blocks + A.blocks) (fun A' => B.blocks + A'.blocks) :=
  ⟨blk_leaves (A.add_owns B n (blk_room hr) (blk_clean hA)) (blk_none hk),
    blk_leaves (B.copy_owns A n (blk_room hr) (blk_clean hA)) (blk_none hk),
    blk_leaves (A.addIdentity_owns one n h1 (blk_room hr) (blk_clean hA)) (blk_none hk),
    blk_leaves (B.diagonalize_owns cplx dc A n hn (blk_room hr) (blk_clean hA)) (blk_none hk)⟩

/-- Where rows shrink, the submatrices they have no more are lost: nothing frees them. -/
theorem C85_ellblock_store_leaks (A B : BlkO) (one n : Nat → Nat) (cplx dc : Bool) (hA : Ready A)
    (hr : Fits A n) (h1 : ∀ i < A.rows.length, one i ≤ A.MB) (hn : ∀ i < B.rows.length, n i ≤ B.MB) :
    Loses (dropped A n) (A.add B n) (A.blocks + B.blocks) (fun A' => A'.blocks + B.blocks) ∧
    Loses (dropped A n) (B.copy A n) (B.blocks + A.blocks) (fun A' => B.blocks + A'.blocks) ∧
    Loses (dropped A n) (A.addIdentity one n) A.blocks (fun A' => A'.blocks) ∧
    Loses (dropped A n) (B.diagonalize cplx dc A n) (B.blocks + A.blocks)
      (fun A' => B.blocks + A'.blocks) := by
  rw [← blk_dropped]
  exact ⟨mem_loses (A.add_owns B n (blk_room hr) (blk_clean hA)) fun _ _ h => h,
    mem_loses (B.copy_owns A n (blk_room hr) (blk_clean hA)) fun _ _ h => h,
    mem_loses (A.addIdentity_owns one n h1 (blk_room hr) (blk_clean hA)) fun _ _ h => h,
    mem_loses (B.diagonalize_owns cplx dc A n hn (blk_room hr) (blk_clean hA)) fun _ _ h => h⟩

/-- A sum that cancels one of two submatrices: after both matrices are released one block remains. -/
example : Res.okAnd (fun r => decide (r.2 = {7})) (letI := exTop; (do
      let A ← fullBlk 2 1 2 fun _ => 2
      let B ← fullBlk 2 1 2 fun _ => 2
      let A' ← A.add B fun _ => 1
      A'.deallocate
      B.deallocate : M Unit) 0) = true := by
  decide +kernel

/-- A sum in which the row gets a second submatrix leaves nothing behind. -/
example : (letI := exTop; (do
      let A ← fullBlk 2 1 2 fun _ => 1
      let B ← fullBlk 2 1 2 fun _ => 1
      let A' ← A.add B fun _ => 2
      A'.deallocate
      B.deallocate : M Unit) {3}) = .ok ((), {3}) := by
  decide +kernel

omit [Allocator] in
/-- After `bml_clear` a matrix is not ready: copying to it writes to freed memory. -/
theorem C85_ellblock_copy_to_cleared : ∃ al : Allocator, ∃ H : Multiset Blk,
    (letI := al; (do
      let A ← fullBlk 2 1 2 fun _ => 1
      let B ← fullBlk 2 1 2 fun _ => 1
      let B' ← B.clear
      let _ ← A.copy B' fun _ => 1
      pure () : M Unit) H) = .ub :=
  ⟨exTop, 0, Res.eq_ub_of_isUb (by decide +kernel)⟩

/-! ## Products -/

/-- Products of three matrices, where no row of the result shrinks. -/
theorem C85_ellblock_multiply_partial (A B C : BlkO) (plain : Bool) (n m : Nat → Nat)
    (hn : ∀ i < C.rows.length, n i ≤ C.MB) (hrn : Fits C n) (hrm : Fits C m) (hC : Ready C)
    (hk : Keeps C m) :
    Leaves (A.multiply false plain B C n m) (A.blocks + B.blocks + C.blocks)
      (fun C' => A.blocks + B.blocks + C'.blocks) :=
  blk_leaves (A.multiply_owns false plain B C n m (fun h => absurd h (by decide)) hn (blk_room hrn)
    (blk_room hrm) (blk_clean hC)) (by simp [multLoss, blk_none hk])

/-- Squares lose the trace, and with `alpha` other than one or `beta` other than zero whatever submatrices the
result drops. -/
theorem C85_ellblock_square_leaks (A C : BlkO) (plain : Bool) (n m : Nat → Nat)
    (hn : ∀ i < C.rows.length, n i ≤ C.MB) (hrn : Fits C n) (hrm : Fits C m) (hC : Ready C) :
    Loses (1 + if plain then 0 else dropped C m) (A.multiply true plain A C n m) (A.blocks + C.blocks)
      (fun C' => A.blocks + C'.blocks) := by
  refine mem_loses (A.multiply_owns true plain A C n m (fun _ => rfl) hn (blk_room hrn) (blk_room hrm)
    (blk_clean hC)) ?_
  rintro C' P ⟨X, e, hx⟩
  refine ⟨X, e, ?_⟩
  rw [hx, multLoss, blk_dropped]
  rfl

/-- A square into a matrix with one submatrix, everything released: the trace remains. -/
example : Res.okAnd (fun r => decide (r.2.card = 1)) (letI := exTop; (do
      let A ← fullBlk 2 1 2 fun _ => 1
      let C ← fullBlk 2 1 2 fun _ => 1
      let C' ← A.multiply true true A C (fun _ => 1) fun _ => 1
      A.deallocate
      C'.deallocate : M Unit) 0) = true := by
  decide +kernel

/-- `bml_multiply_AB` loses every submatrix its result had before. -/
theorem C85_ellblock_multiply_AB_leaks (A B C : BlkO) (n : Nat → Nat) (hn : Fits C n) :
    Loses (submatrices C) (A.multAB B C n) (A.blocks + B.blocks + C.blocks)
      (fun C' => A.blocks + B.blocks + C'.blocks) := by
  rw [← blk_stored]
  exact mem_loses (A.multAB_owns (A.blocks + B.blocks) B C n
    (Multiset.union_le (Multiset.le_add_right _ _) (Multiset.le_add_left _ _)) (blk_room hn)) fun _ _ h => h

/-- The product twice into the same matrix of two submatrices: two blocks remain. -/
example : Res.okAnd (fun r => decide (r.2.card = 2)) (letI := exTop; (do
      let A ← fullBlk 2 2 2 fun _ => 1
      let B ← fullBlk 2 2 2 fun _ => 1
      let C ← newBlk 2 2 2
      let C' ← A.multAB B C fun _ => 1
      let C'' ← A.multAB B C' fun _ => 1
      A.deallocate
      B.deallocate
      C''.deallocate : M Unit) 0) = true := by
  decide +kernel

/-- `bml_multiply_adjust_AB` loses an array for each block row, and what its result drops. -/
theorem C85_ellblock_adjust_AB_leaks (A B C : BlkO) (n : Nat → Nat)
    (hn : ∀ (i : Nat) (r : BRow), C.rows[i]? = some r → n i ≤ r.used.length) :
    Loses (A.rows.length + dropped C n) (A.adjustAB B C n) (A.blocks + B.blocks + C.blocks)
      (fun C' => A.blocks + B.blocks + C'.blocks) := by
  rw [← blk_dropped]
  exact mem_loses (A.adjustAB_owns B C n hn) fun _ _ h => h

/-! ## `bml_add_norm` -/

/-- `bml_add_norm` loses two arrays, and what the sum drops. -/
theorem C85_ellblock_add_norm_leaks (A B : BlkO) (n : Nat → Nat)
    (hn : ∀ (i : Nat) (r : BRow), A.rows[i]? = some r → n i ≤ r.used.length) :
    Loses (2 + dropped A n) (A.addNorm B n) (A.blocks + B.blocks) (fun A' => A'.blocks + B.blocks) := by
  rw [← blk_dropped]
  exact mem_loses (A.addNorm_owns B n hn) fun _ _ h => h

omit [Allocator] in
/-- Where the sum has a submatrix more it is written through a `NULL` pointer, whatever the allocator. -/
theorem C85_ellblock_add_norm_grows (al : Allocator) (A B : BlkO) (n : Nat → Nat) (r : BRow) (L : List BRow)
    (rest : List (Option Blk)) (hA : A.rows = r :: L) (hr : r.rest = none :: rest)
    (hn : r.used.length < n 0) (F : Multiset Blk) :
    (letI := al; A.addNorm B n (A.blocks + B.blocks + F)) = .ub := by
  have hw : ∀ (k : Nat) (used : List Blk) (H : Multiset Blk), used.length < k →
      total (fun p => {p}) used ≤ H → writeRow k (used.map some ++ none :: rest) H = .ub := by
    intro k used
    induction used generalizing k with
    | nil =>
      intro H hk _
      cases k with
      | zero => simp at hk
      | succ k => rfl
    | cons p used ih =>
      intro H hk hH
      cases k with
      | zero => simp at hk
      | succ k =>
        have h1 : ({p} : Multiset Blk) ≤ H :=
          le_trans (Multiset.le_add_right {p} (total (fun p => {p}) used)) hH
        have h2 : total (fun p => ({p} : Multiset Blk)) used ≤ H :=
          le_trans (Multiset.le_add_left (total (fun p => {p}) used) {p}) hH
        show Res.bind (if {p} ≤ H then _ else _) _ = _
        rw [if_pos h1]
        show Res.bind (writeRow k (used.map some ++ none :: rest) H) _ = _
        rw [ih k H (by simpa using hk) h2]
        rfl
  have hone : ∀ H, r.blocks ≤ H → eachRow (fun i r => writeRow (n i) r.ptrs) 0 A.rows H = .ub := by
    intro H hH
    rw [hA]
    show Res.bind (writeRow (n 0) r.ptrs H) _ = _
    rw [show r.ptrs = r.used.map some ++ none :: rest by rw [BRow.ptrs, hr], hw (n 0) r.used H hn hH]
    rfl
  have hsub : r.blocks ≤ A.blocks := by
    rw [BlkO.blocks, hA]
    exact le_trans (Multiset.le_add_right r.blocks (total BRow.blocks L)) (Multiset.le_add_left _ _)
  let := al
  show Res.bind (if A.blocks + B.blocks + _ + _ ≤ _ then _ else _) _ = _
  split
  · show Res.bind (eachRow _ 0 A.rows _) _ = _
    rw [hone]
    · rfl
    · refine le_trans hsub ?_
      refine le_trans ?_ (Multiset.le_add_left _ _)
      refine le_trans ?_ (Multiset.le_add_left _ _)
      rw [add_assoc]
      exact Multiset.le_add_right _ _
  · rfl

/-- A matrix with one submatrix in its first row and a `NULL` pointer beside it. -/
example : ∃ A : BlkO, ∃ r L rest, A.rows = r :: L ∧ r.rest = none :: rest ∧
    r.used.length < (fun _ => 2 : Nat → Nat) 0 :=
  ⟨⟨2, 2, 1, 2, 3, 4, 5, [⟨[6], [none]⟩]⟩, _, _, _, rfl, rfl, by decide⟩

end Props
end Bml
