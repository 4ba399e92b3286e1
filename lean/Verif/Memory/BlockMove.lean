import Verif.Memory.Dist
import Verif.Memory.DistFiles

/-!
# Block-ELLPACK: the transpose in place and messages

`bml_transpose_ellblock` (`ellblock/bml_transpose_ellblock_typed.c` 115-270) allocates nothing: it exchanges
pointers within a row and moves the last pointer of a row behind those of another row.  Which of them, and in
which order, depends on the places of the submatrices and is an argument here.
-/

namespace Bml
namespace Memory

variable [Allocator] {E : Prop}

/-- `swap i a b`: `ellblock_swap_block_row_entries` (`ellblock/bml_transpose_ellblock_typed.c` 84-106) of pointers
in use.  `move i j`: lines 189-213 and 221-245, the last submatrix of row `i` becomes the last one of row `j`; the
pointer to it stays where it was. -/
inductive Move where
  | swap (i a b : Nat)
  | move (i j : Nat)

/-- One of them; `none`: a row is too short. -/
def Move.step : Move → List BRow → Option (List BRow)
  | .swap i a b, rows =>
    match rows[i]? with
    | none => none
    | some r =>
      if h : a < r.used.length ∧ b < r.used.length then
        some (rows.set i ⟨(r.used.set a (r.used[b]'h.2)).set b (r.used[a]'h.1), r.rest⟩)
      else none
  | .move i j, rows =>
    match rows[i]?, rows[j]? with
    | some r, some s =>
      match r.used.getLast?, s.rest with
      | some q, _ :: rest =>
        if i = j then none
        else some ((rows.set i ⟨r.used.dropLast, some q :: r.rest⟩).set j ⟨s.used ++ [q], rest⟩)
      | _, _ => none
    | _, _ => none

/-- `bml_transpose_ellblock` (`ellblock/bml_transpose_ellblock_typed.c` 115-270). -/
def BlkO.transposeIn (L : List Move) (A : BlkO) : M BlkO := do
  use A.blocks
  match L.foldlM (fun rows m => m.step rows) A.rows with
  | none => crash
  | some rows => pure { A with rows := rows }

/-- `bml_mpi_irecv_ellblock` and `bml_mpi_irecv_complete_ellblock`
(`ellblock/bml_parallel_ellblock_typed.c` 102-141) of a matrix with `n i` submatrices in row `i`: the pointers that
were there are overwritten. -/
def BlkO.irecv (n : Nat → Nat) (A : BlkO) : M BlkO := do
  use A.frame
  let buffer ← malloc
  let rows ← eachRow (fun i r => freshRow (n i) r.ptrs) 0 A.rows
  free buffer
  pure { A with rows := rows }

/-- Block-ELLPACK tiles with `N` rows, `NB` block rows and room for `MB` submatrices in each; `imp` submatrices
in the rows of an import, `msg` in those of a message, `n k` and `m k` in those of the `k`-th product; `tr` is the
transpose. -/
def blkFmt (N NB MB : Nat) (imp msg : Nat → Nat) (n m : Nat → Nat → Nat) (plain : Nat → Bool) (tr : List Move) :
    Fmt BlkO where
  blocks := BlkO.blocks
  zero := newBlk N NB MB
  copyNew A := A.newFrom A.N A.rows.length A.MB A.inRow
  copyTo A B := A.copy B A.inRow
  deallocate := BlkO.deallocate
  array := BlkO.array
  fromArray a := importBlk N NB MB a imp
  multiply k A B C := A.multiply false (plain k) B C (n k) (m k)
  send := BlkO.send
  recv := BlkO.irecv msg
  transpose := BlkO.transposeIn tr

/-! ## Proofs -/

omit [Allocator] in
theorem total_perm {a b : List Blk} (h : List.Perm a b) :
    total (fun p => ({p} : Multiset Blk)) a = total (fun p => {p}) b := by
  induction h with
  | nil => rfl
  | cons x _ ih => simp only [total, ih]
  | swap x y l => simp only [total]; abel
  | trans _ _ h1 h2 => exact h1.trans h2

omit [Allocator] in
theorem Move.step_total (m : Move) (rows rows' : List BRow) (h : m.step rows = some rows') :
    total BRow.blocks rows' = total BRow.blocks rows := by
  cases m with
  | swap i a b =>
    simp only [Move.step] at h
    split at h
    · simp at h
    · next r hr =>
      split at h
      · next hab =>
        simp only [Option.some.injEq] at h
        subst h
        obtain ⟨R, h1, h2⟩ := total_split BRow.blocks rows i r hr
        rw [h1, h2]
        congr 1
        exact total_perm (List.set_set_perm hab.1 hab.2)
      · simp at h
  | move i j =>
    simp only [Move.step] at h
    split at h
    · next r s hr hs =>
      split at h
      · next q _ rest hq hrest =>
        split at h
        · simp at h
        · next hij =>
          simp only [Option.some.injEq] at h
          subst h
          obtain ⟨R, h1, h2⟩ := total_split BRow.blocks rows i r hr
          have hs' : (rows.set i ⟨r.used.dropLast, some q :: r.rest⟩)[j]? = some s := by
            rw [List.getElem?_set_ne hij, hs]
          obtain ⟨T, h3, h4⟩ := total_split BRow.blocks _ j s hs'
          have hu : r.used = r.used.dropLast ++ [q] := (List.dropLast_append_getLast? q hq).symm
          have e1 : r.blocks = (⟨r.used.dropLast, some q :: r.rest⟩ : BRow).blocks + {q} := by
            simp only [BRow.blocks]
            conv_lhs => rw [hu]
            rw [total_append]
            simp [total]
          have e2 : (⟨s.used ++ [q], rest⟩ : BRow).blocks = s.blocks + {q} := by
            simp only [BRow.blocks, total_append]
            simp [total]
          rw [h4, e2, h1, e1]
          have e3 := h2 ⟨r.used.dropLast, some q :: r.rest⟩
          rw [h3] at e3
          rw [add_right_comm, e3]
          abel
      · simp at h
    · simp at h

omit [Allocator] in
theorem moves_total : ∀ (L : List Move) (rows rows' : List BRow),
    L.foldlM (fun rows m => m.step rows) rows = some rows' →
      total BRow.blocks rows' = total BRow.blocks rows
  | [], rows, rows', h => by
    simp at h
    rw [h]
  | m :: L, rows, rows', h => by
    rw [List.foldlM_cons] at h
    cases hm : m.step rows with
    | none => rw [hm] at h; simp at h
    | some rows1 =>
      rw [hm] at h
      exact (moves_total L rows1 rows' h).trans (m.step_total rows rows1 hm)

omit [Allocator] in
/-- The transpose keeps the blocks, or finds a row too short. -/
theorem BlkO.transposeIn_owns (L : List Move) (A : BlkO) :
    (∀ H, A.transposeIn L H = .ub) ∨ Owns E A.blocks (A.transposeIn L) fun A' P => P = A'.blocks := by
  cases h : L.foldlM (fun rows m => m.step rows) A.rows with
  | none =>
    left
    intro H
    unfold BlkO.transposeIn
    rw [h]
    show Res.bind (if A.blocks ≤ H then _ else _) _ = _
    split <;> rfl
  | some rows =>
    right
    unfold BlkO.transposeIn
    rw [h]
    refine Owns.use le_rfl (Owns.pure ?_)
    simp only [BlkO.blocks, BlkO.frame, moves_total L A.rows rows h]

theorem BlkO.irecv_owns (n : Nat → Nat) (A : BlkO) (hr : A.Room n) :
    Owns E A.blocks (A.irecv n) fun A' P => ∃ X, P = A'.blocks + X ∧ X.card = A.count := by
  unfold BlkO.irecv
  refine Owns.useR (R := total BRow.blocks A.rows) rfl (Owns.malloc fun b => ?_)
  refine Owns.call (fill_owns A n hr) (R := {b}) (by abel) ?_
  rintro L' _ ⟨X, rfl, hx, _⟩
  refine Owns.free (P' := ({ A with rows := L' } : BlkO).blocks + X) (by abel) ?_
  exact Owns.pure ⟨X, rfl, hx⟩

theorem BlkO.recv_owns (n : Nat → Nat) (A : BlkO) (hr : A.Room n) :
    Owns E A.blocks (A.recv n) fun A' P => ∃ X, P = A'.blocks + X ∧ X.card = A.count := by
  refine withArrays_owns (Owns.use le_rfl (Owns.bind (fill_owns A n hr) ?_))
  rintro L' _ ⟨X, rfl, hx, _⟩
  exact Owns.pure ⟨X, rfl, hx⟩

theorem BlkO.send_owns (A : BlkO) : Owns E A.blocks A.send fun _ P => P = A.blocks :=
  withArrays_owns (Owns.use_last le_rfl rfl)

end Memory
end Bml
