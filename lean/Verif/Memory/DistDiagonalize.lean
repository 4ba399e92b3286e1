import Verif.Memory.DistCsr
import Verif.Memory.BlockMove

/-!
# What the calls do with memory: diagonalization of distributed matrices

`bml_diagonalize` of a distributed matrix with ScaLAPACK, on one rank.  The process grid BLACS makes for the
call counts as a block, like a communicator.
-/

namespace Bml
namespace Memory

variable [Allocator] {L : Type}

/-- The work arrays and the call of ScaLAPACK (`distributed2d/bml_diagonalize_distributed2d_typed.c` 220-296),
`w` the caller's array for the eigenvalues.  Simplification: ScaLAPACK itself keeps no memory, and it
converges. -/
def psyevd (cplx : Bool) (a z : DenseO) (w : Blk) : M Unit :=
  if cplx then do
    let ev ← malloc
    let rwork ← malloc
    let iwork ← malloc
    let work ← malloc
    use (a.blocks + z.blocks + {w} + {ev} + {rwork} + {iwork} + {work})
    freeAll [ev, work, iwork, rwork]
  else do
    let ev ← malloc
    let iwork ← malloc
    let work ← malloc
    use (a.blocks + z.blocks + {w} + {ev} + {iwork} + {work})
    freeAll [ev, work, iwork]

/-- `bml_diagonalize_distributed2d` (`distributed2d/bml_diagonalize_distributed2d_typed.c` 158-308, 478-498) of
matrices with dense tiles: the grid of line 173 is not given back.  `off`: the rank is not on the diagonal.
Simplification: the handle of line 172 is one BLACS has for the communicator already. -/
def diagonalizeDenseTiles (N : Nat) (cplx off : Bool) (A V : DistO DenseO) (w : Blk) :
    M (DistO DenseO) := do
  use ({A.self} ∪ {V.self})
  let _grid ← malloc
  let amat ← A.tile.copyNew
  let amat ← (if off then (denseFmt N).transpose amat else pure amat)
  psyevd cplx amat V.tile w
  amat.deallocate
  let z ← (denseFmt N).transpose V.tile
  pure { V with tile := z }

/-- The same for tiles of another format, which are converted by `toD` to dense and by `back` from dense; line
303 asks the tile of `A` for its type after the tile of `V` is released. -/
def diagonalizeTiles (N : Nat) (F : Fmt L) (toD : L → M DenseO) (back : DenseO → M L) (cplx off : Bool)
    (A V : DistO L) (w : Blk) : M (DistO L) := do
  use ({A.self} ∪ {V.self})
  let _grid ← malloc
  let amat ← toD A.tile
  let zmat ← toD V.tile
  let amat ← (if off then (denseFmt N).transpose amat else pure amat)
  psyevd cplx amat zmat w
  amat.deallocate
  use (F.blocks A.tile)
  F.deallocate V.tile
  use (F.blocks A.tile)
  let z ← back zmat
  zmat.deallocate
  let z' ← F.transpose z
  pure { V with tile := z' }

/-- `bml_convert_dense` (`dense/bml_convert_dense_typed.c` 15-55) of a matrix with the blocks `X`. -/
def convertDense (N : Nat) (X : Multiset Blk) : M DenseO := do
  let B ← newDense N
  use (X + B.blocks)
  pure B

/-- `bml_convert_ellpack` (`ellpack/bml_convert_ellpack_typed.c` 12-38) of a matrix with the blocks `X`.
Simplification: the rows have room. -/
def convertEll (N : Nat) (X : Multiset Blk) : M EllO := do
  let B ← newEll N
  use (X + B.blocks)
  pure B

/-- `bml_convert_ellblock` (`ellblock/bml_convert_ellblock_typed.c` 16-70) of a matrix with the blocks `X`, without
the array of a submatrix, which is freed in the same turn.  Simplification: the rows have room for just `NB`
submatrices. -/
def convertBlk (N NB : Nat) (X : Multiset Blk) : M BlkO := do
  let B ← newBlk N NB NB
  let offset ← malloc
  use (X + {offset})
  let rows ← eachRow (fun _ r => freshRow NB r.ptrs) 0 B.rows
  free offset
  pure { B with rows := rows }

/-! ## Proofs -/

variable {E : Prop} {F : Fmt L} {size : Nat}

theorem psyevd_owns (cplx : Bool) (a z : DenseO) (w : Blk) :
    Owns E (a.blocks + z.blocks + {w}) (psyevd cplx a z w) fun _ P => P = a.blocks + z.blocks + {w} := by
  unfold psyevd
  split
  · refine Owns.malloc fun p => Owns.malloc fun q => Owns.malloc fun r => Owns.malloc fun s => ?_
    refine Owns.useR (R := 0) (by abel1) ?_
    exact Owns.freeAll_last (P' := a.blocks + z.blocks + {w}) (by simp only [total]; abel) rfl
  · refine Owns.malloc fun p => Owns.malloc fun q => Owns.malloc fun r => ?_
    refine Owns.useR (R := 0) (by abel1) ?_
    exact Owns.freeAll_last (P' := a.blocks + z.blocks + {w}) (by simp only [total]; abel) rfl

theorem transposeIf_owns (N : Nat) (off : Bool) (a : DenseO) :
    Owns E a.blocks (if off then (denseFmt N).transpose a else pure a) fun t P => P = t.blocks := by
  split
  · exact (denseFmt_safe N).transpose a
  · exact Owns.pure rfl

theorem diagonalizeDenseTiles_owns (N : Nat) (cplx off : Bool) (A V : DistO DenseO) (w : Blk) :
    Owns E (A.blocks (denseFmt N) + V.blocks (denseFmt N) + {w}) (diagonalizeDenseTiles N cplx off A V w)
      fun V' P => ∃ X : Multiset Blk,
        P = A.blocks (denseFmt N) + V'.blocks (denseFmt N) + {w} + X ∧ X.card = 1 := by
  have hb : ∀ B : DistO DenseO, B.blocks (denseFmt N) = {B.self} + {B.row} + {B.col} + B.tile.blocks :=
    fun _ => rfl
  unfold diagonalizeDenseTiles
  simp only [hb]
  refine Owns.use (le_trans (Multiset.union_le_add _ _) ?_) ?_
  · rw [show {A.self} + {A.row} + {A.col} + A.tile.blocks + ({V.self} + {V.row} + {V.col} + V.tile.blocks) + {w}
      = {A.self} + {V.self} + ({A.row} + {A.col} + A.tile.blocks + {V.row} + {V.col} + V.tile.blocks + {w})
      by abel1]
    exact Multiset.le_add_right _ _
  refine Owns.malloc fun g => ?_
  refine Owns.call A.tile.copyNew_owns (R := {g} + ({A.self} + {A.row} + {A.col}) +
    ({V.self} + {V.row} + {V.col} + V.tile.blocks) + {w}) (by abel1) ?_
  rintro a _ ⟨rfl, _⟩
  refine Owns.call (transposeIf_owns N off a) (R := A.tile.blocks + ({g} + ({A.self} + {A.row} + {A.col}) +
    ({V.self} + {V.row} + {V.col} + V.tile.blocks) + {w})) (by abel1) ?_
  rintro a _ rfl
  refine Owns.call (psyevd_owns cplx a V.tile w) (R := A.tile.blocks + ({g} + ({A.self} + {A.row} + {A.col}) +
    ({V.self} + {V.row} + {V.col}))) (by abel1) ?_
  rintro _ _ rfl
  refine Owns.call a.deallocate_owns (R := V.tile.blocks + {w} + (A.tile.blocks + ({g} +
    ({A.self} + {A.row} + {A.col}) + ({V.self} + {V.row} + {V.col})))) (by abel1) ?_
  rintro _ _ rfl
  refine Owns.call ((denseFmt_safe N).transpose V.tile) (R := {w} + (A.tile.blocks + ({g} +
    ({A.self} + {A.row} + {A.col}) + ({V.self} + {V.row} + {V.col}))))
    (by simp only [denseFmt]; abel1) ?_
  rintro z _ rfl
  refine Owns.pure ⟨{g}, ?_, Multiset.card_singleton _⟩
  simp only [denseFmt]
  abel1

theorem diagonalizeTiles_owns' {G : L → Prop} (hf : ∀ t, Owns E (F.blocks t) (F.deallocate t) fun _ P => P = 0)
    (ht : ∀ t, G t → Owns E (F.blocks t) (F.transpose t) fun t' P => P = F.blocks t') (N : Nat) {toD : L → M DenseO} {back : DenseO → M L}
    (hd : ∀ t, Owns E (F.blocks t) (toD t) fun D P => P = F.blocks t + D.blocks)
    (hk : ∀ D, Owns E D.blocks (back D) fun t P => P = D.blocks + F.blocks t ∧ G t)
    (cplx off : Bool) (A V : DistO L) (w : Blk) :
    Owns E (A.blocks F + V.blocks F + {w}) (diagonalizeTiles N F toD back cplx off A V w)
      fun V' P => ∃ X : Multiset Blk, P = A.blocks F + V'.blocks F + {w} + X ∧ X.card = 1 := by
  unfold diagonalizeTiles
  simp only [DistO.blocks]
  refine Owns.use (le_trans (Multiset.union_le_add _ _) ?_) ?_
  · rw [show {A.self} + {A.row} + {A.col} + F.blocks A.tile + ({V.self} + {V.row} + {V.col} + F.blocks V.tile)
        + {w} = {A.self} + {V.self} +
        ({A.row} + {A.col} + F.blocks A.tile + {V.row} + {V.col} + F.blocks V.tile + {w}) by abel1]
    exact Multiset.le_add_right _ _
  refine Owns.malloc fun g => ?_
  refine Owns.call (hd A.tile) (R := {g} + ({A.self} + {A.row} + {A.col}) +
    ({V.self} + {V.row} + {V.col} + F.blocks V.tile) + {w}) (by abel1) ?_
  rintro a _ rfl
  refine Owns.call (hd V.tile) (R := F.blocks A.tile + a.blocks + ({g} + ({A.self} + {A.row} + {A.col}) +
    ({V.self} + {V.row} + {V.col}) + {w})) (by abel1) ?_
  rintro z _ rfl
  refine Owns.call (transposeIf_owns N off a) (R := F.blocks V.tile + z.blocks + F.blocks A.tile +
    ({g} + ({A.self} + {A.row} + {A.col}) + ({V.self} + {V.row} + {V.col}) + {w})) (by abel1) ?_
  rintro a _ rfl
  refine Owns.call (psyevd_owns cplx a z w) (R := F.blocks V.tile + F.blocks A.tile +
    ({g} + ({A.self} + {A.row} + {A.col}) + ({V.self} + {V.row} + {V.col}))) (by abel1) ?_
  rintro _ _ rfl
  refine Owns.call a.deallocate_owns (R := z.blocks + {w} + (F.blocks V.tile + F.blocks A.tile +
    ({g} + ({A.self} + {A.row} + {A.col}) + ({V.self} + {V.row} + {V.col})))) (by abel1) ?_
  rintro _ _ rfl
  refine Owns.useR (R := z.blocks + {w} + F.blocks V.tile +
    ({g} + ({A.self} + {A.row} + {A.col}) + ({V.self} + {V.row} + {V.col}))) (by abel1) ?_
  refine Owns.call (hf V.tile) (R := z.blocks + {w} + F.blocks A.tile +
    ({g} + ({A.self} + {A.row} + {A.col}) + ({V.self} + {V.row} + {V.col}))) (by abel1) ?_
  rintro _ _ rfl
  refine Owns.useR (R := z.blocks + {w} +
    ({g} + ({A.self} + {A.row} + {A.col}) + ({V.self} + {V.row} + {V.col}))) (by abel1) ?_
  refine Owns.call (hk z) (R := {w} + F.blocks A.tile +
    ({g} + ({A.self} + {A.row} + {A.col}) + ({V.self} + {V.row} + {V.col}))) (by abel1) ?_
  rintro v _ ⟨rfl, hG⟩
  refine Owns.call z.deallocate_owns (R := F.blocks v + {w} + F.blocks A.tile +
    ({g} + ({A.self} + {A.row} + {A.col}) + ({V.self} + {V.row} + {V.col}))) (by abel1) ?_
  rintro _ _ rfl
  refine Owns.call (ht v hG) (R := {w} + F.blocks A.tile +
    ({g} + ({A.self} + {A.row} + {A.col}) + ({V.self} + {V.row} + {V.col}))) (by abel1) ?_
  rintro v _ rfl
  exact Owns.pure ⟨{g}, by abel1, Multiset.card_singleton _⟩

theorem diagonalizeTiles_owns (hF : F.Safe E size) (N : Nat) {toD : L → M DenseO} {back : DenseO → M L}
    (hd : ∀ t, Owns E (F.blocks t) (toD t) fun D P => P = F.blocks t + D.blocks)
    (hk : ∀ D, Owns E D.blocks (back D) fun t P => P = D.blocks + F.blocks t)
    (cplx off : Bool) (A V : DistO L) (w : Blk) :
    Owns E (A.blocks F + V.blocks F + {w}) (diagonalizeTiles N F toD back cplx off A V w)
      fun V' P => ∃ X : Multiset Blk, P = A.blocks F + V'.blocks F + {w} + X ∧ X.card = 1 :=
  diagonalizeTiles_owns' (G := fun _ => True) hF.deallocate (fun t _ => hF.transpose t) N hd
    (fun D => (hk D).mono fun _ _ h => ⟨h, trivial⟩) cplx off A V w

theorem convertDense_owns (N : Nat) (X : Multiset Blk) :
    Owns E X (convertDense N X) fun B P => P = X + B.blocks := by
  unfold convertDense
  refine Owns.call (newDense_owns N) (R := X) (by abel1) ?_
  rintro B _ ⟨rfl, _⟩
  exact Owns.useR (R := 0) (by abel1) (Owns.pure (by abel1))

theorem convertEll_owns (N : Nat) (X : Multiset Blk) :
    Owns E X (convertEll N X) fun B P => P = X + B.blocks := by
  unfold convertEll
  refine Owns.call (newEll_owns N) (R := X) (by abel1) ?_
  rintro B _ ⟨rfl, _⟩
  exact Owns.useR (R := 0) (by abel1) (Owns.pure (by abel1))

theorem convertCsr_tile_owns (N : Nat) (D : DenseO) (full : Nat → Bool) :
    Owns E D.blocks (asTile N (convertCsr N D.array full)) fun B P => P = D.blocks + B.mat.blocks := by
  refine asTile_owns (Q := fun B P => P = D.blocks + B.blocks) ?_
  unfold convertCsr
  refine Owns.call (newCsr_owns N) (R := D.blocks) (by abel) ?_
  rintro B _ ⟨rfl, e⟩
  refine Owns.congr (add_comm _ _) ?_
  exact Owns.mono (convert_go_owns D.array_owns N 0 B (by omega)) fun B' P h => ⟨h.1, h.2.trans e⟩

/-- All rows have `NB` submatrices. -/
def FullRows (NB : Nat) (rows : List BRow) : Prop :=
  rows.length = NB ∧ ∀ (k : Nat) (r : BRow), rows[k]? = some r → r.used.length = NB

theorem convertBlk_owns (N NB : Nat) (S : Multiset Blk) :
    Owns E S (convertBlk N NB S) fun B P => P = S + B.blocks ∧ FullRows NB B.rows := by
  unfold convertBlk
  refine Owns.call (newBlk_owns N NB NB) (R := S) (by abel) ?_
  rintro A _ ⟨rfl, e, _, _⟩
  refine Owns.malloc fun o => ?_
  refine Owns.useR (R := A.blocks) (by abel) ?_
  refine Owns.call (fill_owns A (fun _ => NB) ?_) (R := {o} + S) (by abel) ?_
  · intro k r hk
    rw [e] at hk
    obtain ⟨rfl, hlt⟩ := newBlk_row hk
    simp [BRow.ptrs]
  rintro L' _ ⟨X, rfl, hx, hl, hp⟩
  have hX : X = 0 := by
    rw [← Multiset.card_eq_zero, hx]
    refine (sumRows_congr (g := fun _ _ => 0) A.rows 0 fun k r hk => ?_).trans (sumRows_zero 0 _)
    rw [e] at hk
    rw [(newBlk_row hk).1]
    rfl
  subst hX
  have hlen : L'.length = NB := by rw [hl, e, List.length_replicate]
  refine Owns.free (P' := ({ A with rows := L' } : BlkO).blocks + S) (by abel) ?_
  refine Owns.pure ⟨by abel, hlen, fun k r' hk => ?_⟩
  have hlt : k < L'.length := (List.getElem?_eq_some_iff.1 hk).1
  rw [hlen] at hlt
  exact (hp k _ r' (by rw [e, List.getElem?_replicate, if_pos hlt]) hk).1

omit [Allocator] in
theorem FullRows.swap {NB i a b : Nat} {rows : List BRow} (h : FullRows NB rows) (hi : i < NB) (ha : a < NB)
    (hb : b < NB) : ∃ rows', Move.step (.swap i a b) rows = some rows' ∧ FullRows NB rows' := by
  have hi' : i < rows.length := by rw [h.1]; exact hi
  have hr : rows[i]? = some rows[i] := List.getElem?_eq_getElem hi'
  have hu := h.2 i _ hr
  simp only [Move.step, hr]
  rw [dif_pos ⟨by rw [hu]; exact ha, by rw [hu]; exact hb⟩]
  refine ⟨_, rfl, by rw [List.length_set, h.1], fun k r hk => ?_⟩
  rw [List.getElem?_set] at hk
  split at hk
  · simp only [Option.some.injEq] at hk
    rw [← hk]
    simp only [List.length_set, hu]
  · exact h.2 k r hk

omit [Allocator] in
/-- In a matrix with all submatrices the transpose in place only exchanges pointers within rows. -/
theorem FullRows.transposeIn_owns {NB : Nat} {A : BlkO} (h : FullRows NB A.rows) {tr : List Move}
    (ht : ∀ m ∈ tr, ∃ i a b, m = .swap i a b ∧ i < NB ∧ a < NB ∧ b < NB) :
    Owns E A.blocks (A.transposeIn tr) fun A' P => P = A'.blocks := by
  have key : ∀ (L : List Move) (rows : List BRow), FullRows NB rows →
      (∀ m ∈ L, ∃ i a b, m = .swap i a b ∧ i < NB ∧ a < NB ∧ b < NB) →
      ∃ rows', L.foldlM (fun rows (m : Move) => m.step rows) rows = some rows' := by
    intro L
    induction L with
    | nil => exact fun rows _ _ => ⟨rows, rfl⟩
    | cons m L ih =>
      intro rows hf hL
      obtain ⟨i, a, b, rfl, hi, ha, hb⟩ := hL m List.mem_cons_self
      obtain ⟨rows1, h1, hf1⟩ := hf.swap hi ha hb
      obtain ⟨rows', h2⟩ := ih rows1 hf1 fun m hm => hL m (List.mem_cons_of_mem _ hm)
      exact ⟨rows', by rw [List.foldlM_cons, h1]; exact h2⟩
  obtain ⟨rows, hrows⟩ := key tr A.rows h ht
  unfold BlkO.transposeIn
  rw [hrows]
  refine Owns.use le_rfl (Owns.pure ?_)
  simp only [BlkO.blocks, BlkO.frame, moves_total tr A.rows rows hrows]

end Memory
end Bml
