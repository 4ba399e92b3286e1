import Verif.Memory.Proof

/-!
# What the calls do with memory: block-ELLPACK

A block-ELLPACK matrix has a structure, four arrays and one block of memory for each stored submatrix
(builds without `BML_ELLBLOCK_USE_MEMPOOL`, the default).  Of the array of pointers the first `nnzb` of
each row are in use; the others are `NULL`, or keep the value they had when they were in use.  How many
submatrices each row of a result has is an argument (`n`).
-/

namespace Bml
namespace Memory

variable [Allocator]

/-- A row of pointers: those in use and the others. -/
structure BRow where
  (used : List Blk) (rest : List (Option Blk))

/-- All pointers of a row. -/
def BRow.ptrs (r : BRow) : List (Option Blk) := r.used.map some ++ r.rest

/-- The blocks a row refers to with the pointers in use. -/
def BRow.blocks (r : BRow) : Multiset Blk := total (fun p => {p}) r.used

/-- `bml_matrix_ellblock_t` (`ellblock/bml_types_ellblock.h`). -/
structure BlkO where
  (N MB : Nat) (self bsize index nnz ptr : Blk) (rows : List BRow)

/-- The structure and the arrays. -/
def BlkO.frame (A : BlkO) : Multiset Blk := {A.self} + {A.bsize} + {A.index} + {A.nnz} + {A.ptr}

/-- The blocks of a block-ELLPACK matrix, those `bml_deallocate` frees. -/
def BlkO.blocks (A : BlkO) : Multiset Blk := A.frame + total BRow.blocks A.rows

/-- `n` new submatrices in a row, the pointers that were there overwritten. -/
def freshRow : Nat → List (Option Blk) → M BRow
  | 0, ptrs => pure ⟨[], ptrs⟩
  | _ + 1, [] => crash
  | n + 1, _ :: ptrs => do
    let p ← malloc
    let r ← freshRow n ptrs
    pure ⟨p :: r.used, r.rest⟩

/-- `n` submatrices stored in a row, allocated only where the pointer is `NULL`. -/
def storeRow : Nat → List (Option Blk) → M BRow
  | 0, ptrs => pure ⟨[], ptrs⟩
  | _ + 1, [] => crash
  | n + 1, none :: ptrs => do
    let p ← malloc
    let r ← storeRow n ptrs
    pure ⟨p :: r.used, r.rest⟩
  | n + 1, some p :: ptrs => do
    use {p}
    let r ← storeRow n ptrs
    pure ⟨p :: r.used, r.rest⟩

/-- `n` submatrices stored in a row without any allocation. -/
def writeRow : Nat → List (Option Blk) → M BRow
  | 0, ptrs => pure ⟨[], ptrs⟩
  | _ + 1, [] => crash
  | _ + 1, none :: _ => crash
  | n + 1, some p :: ptrs => do
    use {p}
    let r ← writeRow n ptrs
    pure ⟨p :: r.used, r.rest⟩

/-- A loop over the rows. -/
def eachRow (f : Nat → BRow → M BRow) : Nat → List BRow → M (List BRow)
  | _, [] => pure []
  | i, r :: L => do
    let r' ← f i r
    let L' ← eachRow f (i + 1) L
    pure (r' :: L')

/-- `bml_block_matrix_ellblock` (`ellblock/bml_allocate_ellblock_typed.c` 176-243), and through it
`bml_noinit_matrix_ellblock` and `bml_zero_matrix_ellblock`; the default block sizes, allocated once in a
program (`ellblock/bml_allocate_ellblock.c` 30-110), are left out. -/
def newBlk (N NB MB : Nat) : M BlkO := do
  let self ← malloc
  let bsize ← malloc
  let index ← malloc
  let nnz ← malloc
  let ptr ← malloc
  pure ⟨N, MB, self, bsize, index, nnz, ptr, List.replicate NB ⟨[], List.replicate MB none⟩⟩

/-- A new matrix with `n i` submatrices in row `i`: `bml_banded_matrix_ellblock`,
`bml_random_matrix_ellblock` (without its two markers) and `bml_identity_matrix_ellblock`
(`ellblock/bml_allocate_ellblock_typed.c` 276-460). -/
def fullBlk (N NB MB : Nat) (n : Nat → Nat) : M BlkO := do
  let A ← newBlk N NB MB
  let rows ← eachRow (fun i r => freshRow (n i) r.ptrs) 0 A.rows
  pure { A with rows := rows }

/-- `bml_deallocate_ellblock` (`ellblock/bml_allocate_ellblock.c` 119-140). -/
def BlkO.deallocate (A : BlkO) : M Unit := do
  use A.frame
  each (fun r : BRow => freeAll r.used) A.rows
  freeAll [A.ptr, A.index, A.nnz, A.bsize, A.self]

/-- `bml_clear_ellblock` (`ellblock/bml_allocate_ellblock_typed.c` 127-144): the submatrices are freed, the
pointers to them stay. -/
def BlkO.clear (A : BlkO) : M BlkO := do
  use A.frame
  let rows ← eachRow (fun _ r => do
    freeAll r.used
    pure ⟨[], r.ptrs⟩) 0 A.rows
  pure { A with rows := rows }

/-- `bml_copy_ellblock_new` (`ellblock/bml_copy_ellblock_typed.c` 21-61) with `n` the blocks of `A`, and with
other `n` `bml_scale_ellblock_new`, `bml_threshold_new_ellblock` (`ellblock/bml_threshold_ellblock_typed.c`
30-90), `bml_transpose_new_ellblock` (`ellblock/bml_transpose_ellblock_typed.c` 29-80) and
`bml_extract_submatrix_ellblock` (`ellblock/bml_submatrix_ellblock_typed.c` 25-105). -/
def BlkO.newFrom (A : BlkO) (N NB MB : Nat) (n : Nat → Nat) : M BlkO := do
  use A.blocks
  let B ← fullBlk N NB MB n
  use (A.blocks + B.blocks)
  pure B

/-- `bml_copy_ellblock` (`ellblock/bml_copy_ellblock_typed.c` 71-109); `n` the blocks of `A`. -/
def BlkO.copy (A B : BlkO) (n : Nat → Nat) : M BlkO := do
  use (A.blocks + B.frame)
  let rows ← eachRow (fun i r => storeRow (n i) r.ptrs) 0 B.rows
  pure { B with rows := rows }

/-- `bml_export_to_dense_ellblock` (`ellblock/bml_export_ellblock_typed.c` 28-103), and `bml_get_row_ellblock`
(`ellblock/bml_getters_ellblock_typed.c` 85-125). -/
def BlkO.array (A : BlkO) : M Blk := do
  use A.blocks
  let p ← malloc
  let offset ← malloc
  use (A.blocks + {p} + {offset})
  free offset
  pure p

/-- `bml_gershgorin_ellblock` (`ellblock/bml_normalize_ellblock_typed.c` 75-170). -/
def BlkO.gershgorin (A : BlkO) : M Blk := do
  let eval ← malloc
  let rad ← malloc
  let dval ← malloc
  use (A.blocks + {eval} + {rad} + {dval})
  free dval
  free rad
  pure eval

/-- `bml_sum_squares2_ellblock`, `bml_sum_AB_ellblock` (`ellblock/bml_norm_ellblock_typed.c` 80-275): an array
for each block row, freed in the end. -/
def BlkO.sums (A B : BlkO) : M Unit := do
  let y ← times malloc A.rows.length
  use (A.blocks ∪ B.blocks)
  freeAll y

/-- `bml_import_from_dense_ellblock` (`ellblock/bml_import_ellblock_typed.c` 30-105) without the array of a
submatrix, which is freed in the same turn. -/
def importBlk (N NB MB : Nat) (a : Blk) (n : Nat → Nat) : M BlkO := do
  let A ← newBlk N NB MB
  let offset ← malloc
  use ({a} + {offset})
  let rows ← eachRow (fun i r => freshRow (n i) r.ptrs) 0 A.rows
  free offset
  pure { A with rows := rows }

/-- `bml_threshold_ellblock` (`ellblock/bml_threshold_ellblock_typed.c` 94-140) with `bml_free_block_ellblock`
(`ellblock/bml_allocate_ellblock_typed.c` 41-117): the submatrices `keep` rejects are freed and the row is
closed up. -/
def BlkO.threshold (keep : Nat → Blk → Bool) (A : BlkO) : M BlkO := do
  use A.blocks
  let rows ← eachRow (fun i r => do
    freeAll (r.used.filter fun p => !keep i p)
    pure ⟨r.used.filter (keep i),
      (r.used.filter fun p => !keep i p).map (fun _ => none) ++ r.rest⟩) 0 A.rows
  pure { A with rows := rows }

/-- `bml_add_ellblock` (`ellblock/bml_add_ellblock_typed.c` 37-197): row `i` of the sum has `n i` submatrices
above the threshold, stored over the old ones. -/
def BlkO.add (A B : BlkO) (n : Nat → Nat) : M BlkO := do
  let storage ← malloc
  use (A.blocks + B.blocks + {storage})
  let rows ← eachRow (fun i r => storeRow (n i) r.ptrs) 0 A.rows
  free storage
  pure { A with rows := rows }

/-- `bml_add_norm_ellblock` (`ellblock/bml_add_ellblock_typed.c` 211-342): two arrays are never freed, and
submatrices are stored without looking whether there is room for them. -/
def BlkO.addNorm (A B : BlkO) (n : Nat → Nat) : M BlkO := do
  let x ← malloc
  let y ← malloc
  use (A.blocks + B.blocks + {x} + {y})
  let rows ← eachRow (fun i r => writeRow (n i) r.ptrs) 0 A.rows
  pure { A with rows := rows }

/-- `bml_add_identity_ellblock` (`ellblock/bml_add_ellblock_typed.c` 355-370); `one i` submatrices in row `i` of
the identity. -/
def BlkO.addIdentity (A : BlkO) (one n : Nat → Nat) : M BlkO := do
  let Id ← fullBlk A.N A.rows.length A.MB one
  let A' ← A.add Id n
  Id.deallocate
  pure A'

/-- `bml_multiply_x2_ellblock` (`ellblock/bml_multiply_ellblock_typed.c` 246-442). -/
def BlkO.x2 (X X2 : BlkO) (n : Nat → Nat) : M (Blk × BlkO) := do
  let X2 ← X2.clear
  let trace ← malloc
  let storage ← malloc
  use (X.blocks + {trace} + {storage})
  let rows ← eachRow (fun i r => do
    let right ← malloc
    let r' ← freshRow (n i) r.ptrs
    free right
    pure r') 0 X2.rows
  free storage
  pure (trace, { X2 with rows := rows })

/-- `bml_multiply_AB_ellblock` (`ellblock/bml_multiply_ellblock_typed.c` 456-621): unlike
`bml_multiply_x2_ellblock` it does not clear its result first. -/
def BlkO.multAB (A B C : BlkO) (n : Nat → Nat) : M BlkO := do
  let storage ← malloc
  use (A.blocks ∪ B.blocks)
  use (C.frame + {storage})
  let rows ← eachRow (fun i r => do
    let right ← malloc
    let r' ← freshRow (n i) r.ptrs
    free right
    pure r') 0 C.rows
  free storage
  pure { C with rows := rows }

/-- `bml_multiply_ellblock` (`ellblock/bml_multiply_ellblock_typed.c` 183-231): the trace
`bml_multiply_x2_ellblock` gives is dropped.  `square`: `A` and `B` are the same matrix; `plain`: `alpha` is
one and `beta` zero. -/
def BlkO.multiply (square plain : Bool) (A B C : BlkO) (n m : Nat → Nat) : M BlkO :=
  if square && plain then do
    let r ← A.x2 C n
    pure r.2
  else do
    use C.frame
    let A2 ← newBlk C.N C.rows.length C.MB
    let A2 ← (if square then do
        let r ← A.x2 A2 n
        pure r.2
      else A.multAB B A2 n)
    let C' ← C.add A2 m
    A2.deallocate
    pure C'

/-- `bml_multiply_adjust_AB_ellblock` (`ellblock/bml_multiply_ellblock_typed.c` 634-747), one turn of its loop:
an array for each block row, never freed, and submatrices stored without allocation. -/
def BlkO.adjustAB (A B C : BlkO) (n : Nat → Nat) : M BlkO := do
  let x ← times malloc A.rows.length
  use (A.blocks ∪ B.blocks)
  use (C.frame + total (fun p => {p}) x)
  let rows ← eachRow (fun i r => writeRow (n i) r.ptrs) 0 C.rows
  pure { C with rows := rows }

/-- `bml_inverse_ellblock` (`ellblock/bml_inverse_ellblock_typed.c` 35-68). -/
def BlkO.inverse (A : BlkO) (n : Nat → Nat) : M BlkO := do
  let a ← A.array
  let D ← newDense A.N
  use (D.blocks + {a})
  free a
  D.inverseInplace
  let a ← D.array
  D.deallocate
  let B ← importBlk A.N A.rows.length A.MB a n
  free a
  pure B

/-- `bml_diagonalize_ellblock` (`ellblock/bml_diagonalize_ellblock_typed.c` 36-93). -/
def BlkO.diagonalize (cplx dc : Bool) (A V : BlkO) (n : Nat → Nat) : M BlkO := do
  let a ← A.array
  let D ← newDense A.N
  use (D.blocks + {a})
  free a
  let W ← newDense A.N
  D.diagonalize cplx dc W
  D.deallocate
  let w ← W.array
  W.deallocate
  let T ← importBlk A.N A.rows.length A.MB w n
  free w
  let V' ← T.copy V n
  T.deallocate
  pure V'

/-! ## Proofs -/

variable {E : Prop}

/-- Beside those in use a row has only `NULL` pointers. -/
def BRow.Clean (r : BRow) : Prop := ∀ q ∈ r.rest, q = none

/-- A sum over the rows. -/
def sumRows (lose : Nat → BRow → Nat) : Nat → List BRow → Nat
  | _, [] => 0
  | i, r :: L => lose i r + sumRows lose (i + 1) L

theorem freshRow_owns : ∀ (n : Nat) (ptrs : List (Option Blk)), n ≤ ptrs.length →
    Owns E 0 (freshRow n ptrs) fun r P => P = r.blocks ∧ r.rest = ptrs.drop n ∧ r.used.length = n
  | 0, ptrs, _ => Owns.pure ⟨rfl, rfl, rfl⟩
  | n + 1, [], h => by simp at h
  | n + 1, q :: ptrs, h => by
    refine Owns.malloc fun p => ?_
    refine Owns.call (freshRow_owns n ptrs (by simpa using h)) (R := {p}) (by abel) ?_
    rintro r _ ⟨rfl, e1, e2⟩
    exact Owns.pure ⟨by simp only [BRow.blocks, total]; abel, by simp [e1], by simp [e2]⟩

theorem store_none : ∀ (n : Nat) (ptrs : List (Option Blk)), n ≤ ptrs.length → (∀ q ∈ ptrs, q = none) →
    Owns E 0 (storeRow n ptrs) fun r P => P = r.blocks ∧ r.used.length = n ∧ r.Clean
  | 0, ptrs, _, h => Owns.pure ⟨rfl, rfl, h⟩
  | n + 1, [], h, _ => by simp at h
  | n + 1, some p :: ptrs, _, h => by simpa using h (some p) (by simp)
  | n + 1, none :: ptrs, h, hq => by
    refine Owns.malloc fun p => ?_
    refine Owns.call (store_none n ptrs (by simpa using h) fun q hm => hq q (by simp [hm])) (R := {p})
      (by abel) ?_
    rintro r _ ⟨rfl, e, hc⟩
    exact Owns.pure ⟨by simp only [BRow.blocks, total]; abel, by simp [e], hc⟩

omit [Allocator] in
theorem total_single_card : ∀ L : List Blk, (total (fun p => ({p} : Multiset Blk)) L).card = L.length
  | [] => rfl
  | p :: L => by simp [total, total_single_card L]

theorem storeRow_owns : ∀ (n : Nat) (used : List Blk) (rest : List (Option Blk)),
    n ≤ (used.map some ++ rest).length → (∀ q ∈ rest, q = none) →
      Owns E (total (fun p => {p}) used) (storeRow n (used.map some ++ rest)) fun r P =>
        ∃ L, P = r.blocks + L ∧ L.card = used.length - n ∧ r.used.length = n ∧
          (used.length ≤ n → r.Clean)
  | 0, used, rest, _, h => by
    refine Owns.pure ⟨total (fun p => {p}) used, by simp [BRow.blocks, total],
      by simp [total_single_card], rfl, ?_⟩
    intro hu
    rw [List.length_eq_zero_iff.1 (Nat.le_zero.1 hu)]
    exact h
  | n + 1, [], rest, hn, h => by
    refine Owns.mono (store_none (n + 1) rest (by simpa using hn) h) ?_
    rintro r _ ⟨rfl, e, hc⟩
    exact ⟨0, by abel, by simp, e, fun _ => hc⟩
  | n + 1, p :: used, rest, hn, h => by
    refine Owns.useR (R := total (fun p => {p}) used) rfl ?_
    refine Owns.call (storeRow_owns n used rest (by simp at hn ⊢; omega) h) (R := {p})
      (by simp only [total]; abel) ?_
    rintro r _ ⟨L, rfl, hl, e, hc⟩
    refine Owns.pure ⟨L, by simp only [BRow.blocks, total]; abel, by simp [hl], by simp [e], ?_⟩
    intro hu
    exact hc (by simpa using hu)

omit [Allocator] in
theorem writeRow_owns : ∀ (n : Nat) (used : List Blk) (rest : List (Option Blk)), n ≤ used.length →
    Owns E (total (fun p => {p}) used) (writeRow n (used.map some ++ rest)) fun r P =>
      ∃ L, P = r.blocks + L ∧ L.card = used.length - n ∧ r.used.length = n
  | 0, used, rest, _ =>
    Owns.pure ⟨total (fun p => {p}) used, by simp [BRow.blocks, total], by simp [total_single_card], rfl⟩
  | n + 1, [], rest, hn => by simp at hn
  | n + 1, p :: used, rest, hn => by
    refine Owns.useR (R := total (fun p => {p}) used) rfl ?_
    refine Owns.call (writeRow_owns n used rest (by simpa using hn)) (R := {p})
      (by simp only [total]; abel) ?_
    rintro r _ ⟨L, rfl, hl, e⟩
    exact Owns.pure ⟨L, by simp only [BRow.blocks, total]; abel, by simp [hl], by simp [e]⟩

omit [Allocator] in
/-- A loop over rows, of which the one at `k` loses `lose k r` blocks. -/
theorem eachRow_owns {f : Nat → BRow → M BRow} {lose : Nat → BRow → Nat} {post : Nat → BRow → BRow → Prop} :
    ∀ (L : List BRow) (i : Nat),
      (∀ k r, L[k]? = some r → Owns E r.blocks (f (i + k) r) fun r' P =>
        ∃ X, P = r'.blocks + X ∧ X.card = lose (i + k) r ∧ post (i + k) r r') →
      Owns E (total BRow.blocks L) (eachRow f i L) fun L' P =>
        ∃ X, P = total BRow.blocks L' + X ∧ X.card = sumRows lose i L ∧
          L'.length = L.length ∧ ∀ k r r', L[k]? = some r → L'[k]? = some r' → post (i + k) r r'
  | [], i, _ => Owns.pure ⟨0, by simp [total], rfl, rfl, fun k r r' h => by simp at h⟩
  | r :: L, i, h => by
    refine Owns.call (h 0 r rfl) (R := total BRow.blocks L) rfl ?_
    rintro r' _ ⟨X, rfl, hx, hp⟩
    have hrec := eachRow_owns (f := f) (lose := lose) (post := post) L (i + 1) fun k s hs => by
      have := h (k + 1) s (by simpa using hs)
      rw [show i + (k + 1) = i + 1 + k by omega] at this
      exact this
    refine Owns.call hrec (R := r'.blocks + X) (by abel) ?_
    rintro L' _ ⟨Y, rfl, hy, hlen, hq⟩
    refine Owns.pure ⟨X + Y, by simp only [total]; abel, ?_, by simp [hlen], ?_⟩
    · rw [Multiset.card_add, hx, hy]
      rfl
    · intro k s s' h1 h2
      cases k with
      | zero =>
        simp only [List.getElem?_cons_zero, Option.some.injEq] at h1 h2
        subst h1; subst h2
        exact hp
      | succ k =>
        have := hq k s s' (by simpa using h1) (by simpa using h2)
        rw [show i + 1 + k = i + (k + 1) by omega] at this
        exact this

end Memory
end Bml
