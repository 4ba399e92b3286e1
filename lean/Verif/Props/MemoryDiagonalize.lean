import Verif.Memory.DistDiagonalize
import Verif.Props.MemoryDist

/-!
# C85 for the diagonalization of distributed matrices

On one rank, `w` the caller's array for the eigenvalues.
-/

namespace Bml
namespace Props

open Memory _root_.Bml.Spec

variable [Allocator] {L : Type} {F : Fmt L} {size : Nat}

/-- Dense tiles: real or complex elements, on or off the diagonal, nothing is lost but the process grid made
for the call. -/
theorem C85_distributed_diagonalize_leaks (N : Nat) (cplx off : Bool) (A V : DistO DenseO) (w : Blk) :
    Loses 1 (diagonalizeDenseTiles N cplx off A V w) (onRank (denseFmt N) A + onRank (denseFmt N) V + {w})
      fun V' => onRank (denseFmt N) A + onRank (denseFmt N) V' + {w} :=
  mem_loses (diagonalizeDenseTiles_owns N cplx off A V w) fun _ _ h => h

/-- Tiles of any other format whose calls and conversions leave nothing behind: the same. -/
theorem C85_distributed_diagonalize_tiles_leaks (hF : SafeFormat F size) (N : Nat) {toD : L → M DenseO}
    {back : DenseO → M L} (hd : ∀ t, Leaves (toD t) (F.blocks t) fun D => F.blocks t + D.blocks)
    (hk : ∀ D, Leaves (back D) D.blocks fun t => D.blocks + F.blocks t) (cplx off : Bool)
    (A V : DistO L) (w : Blk) :
    Loses 1 (diagonalizeTiles N F toD back cplx off A V w) (onRank F A + onRank F V + {w})
      fun V' => onRank F A + onRank F V' + {w} :=
  mem_loses (diagonalizeTiles_owns (dist_safe hF) N (fun t => dist_owns (hd t)) (fun D => dist_owns (hk D))
    cplx off A V w) fun _ _ h => h

/-- ELLPACK and CSR tiles with their conversions are such. -/
theorem C85_distributed_diagonalize_formats (N : Nat) (t : EllO) (c : CsrO) (D : DenseO) (full : Nat → Bool) :
    (Leaves (convertDense N t.blocks) t.blocks (fun D => t.blocks + D.blocks) ∧
      Leaves (convertEll N D.blocks) D.blocks fun t => D.blocks + t.blocks) ∧
    Leaves (convertDense N c.blocks) c.blocks (fun D => c.blocks + D.blocks) ∧
      Leaves (convertCsr N D.array full) D.blocks fun c => D.blocks + c.blocks :=
  ⟨⟨mem_leaves (convertDense_owns N _) fun _ _ h => h, mem_leaves (convertEll_owns N _) fun _ _ h => h⟩,
    mem_leaves (convertDense_owns N _) fun _ _ h => h,
    mem_leaves (convertCsr_owns N D.array_owns) fun _ _ h => h⟩

/-- So for ELLPACK tiles with room in their rows. -/
theorem C85_distributed_diagonalize_ellpack_leaks (N : Nat) (plain : Nat → Bool) (cplx off : Bool)
    (A V : DistO EllO) (w : Blk) :
    Loses 1 (diagonalizeTiles N (ellFmt N plain) (fun t => convertDense N t.blocks)
        (fun D => convertEll N D.blocks) cplx off A V w)
      (onRank (ellFmt N plain) A + onRank (ellFmt N plain) V + {w})
      fun V' => onRank (ellFmt N plain) A + onRank (ellFmt N plain) V' + {w} :=
  C85_distributed_diagonalize_tiles_leaks (C85_distributed_formats N plain).2 N
    (fun _ => mem_leaves (convertDense_owns N _) fun _ _ h => h)
    (fun _ => mem_leaves (convertEll_owns N _) fun _ _ h => h) cplx off A V w

/-- And for CSR tiles, whichever of their rows have to grow in the conversion (`full`) and the transpose (`tr`). -/
theorem C85_distributed_diagonalize_csr_leaks (N : Nat) (imp msg tr : List (Nat × Bool)) (plain : Nat → Bool)
    (threads : Nat) (app : Nat → List (Nat × Bool)) (es : Nat → Nat → List Entry) (ht : ∀ x ∈ tr, x.1 < N)
    (full : Nat → Bool) (cplx off : Bool) (A V : DistO (CsrTile N)) (w : Blk) :
    let F := csrFmt N imp msg tr plain threads app es
    Loses 1 (diagonalizeTiles N F (fun t => convertDense N t.mat.blocks)
        (fun D => asTile N (convertCsr N D.array full)) cplx off A V w)
      (onRank F A + onRank F V + {w}) fun V' => onRank F A + onRank F V' + {w} :=
  mem_loses (diagonalizeTiles_owns' (G := fun _ => True)
    (fun t => t.mat.deallocate_owns)
    (fun t _ => asTile_owns ((t.mat.transposeIn_owns tr (by rw [t.rows]; exact ht)).mono
      fun _ _ h => ⟨h.1, h.2.trans t.rows⟩)) N
    (fun t => convertDense_owns N _) (fun D => (convertCsr_tile_owns N D full).mono fun _ _ h => ⟨h, trivial⟩)
    cplx off A V w) fun _ _ h => h

/-- And for block-ELLPACK tiles with `NB` block rows: the eigenvectors come back with all submatrices, so that their
transpose only exchanges submatrices within rows (`tr`). -/
theorem C85_distributed_diagonalize_ellblock_leaks (N NB MB : Nat) (imp msg : Nat → Nat) (n m : Nat → Nat → Nat)
    (plain : Nat → Bool) (tr : List Move)
    (ht : ∀ x ∈ tr, ∃ i a b, x = .swap i a b ∧ i < NB ∧ a < NB ∧ b < NB) (cplx off : Bool)
    (A V : DistO BlkO) (w : Blk) :
    let F := blkFmt N NB MB imp msg n m plain tr
    Loses 1 (diagonalizeTiles N F (fun t => convertDense N t.blocks) (fun D => convertBlk N NB D.blocks)
        cplx off A V w)
      (onRank F A + onRank F V + {w}) fun V' => onRank F A + onRank F V' + {w} :=
  mem_loses (diagonalizeTiles_owns' (G := fun t => FullRows NB t.rows) (fun t => t.deallocate_owns)
    (fun _ h => h.transposeIn_owns ht) N (fun _ => convertDense_owns N _) (fun D => convertBlk_owns N NB D.blocks)
    cplx off A V w) fun _ _ h => h

omit [Allocator] in
/-- Calls that lose one block each. -/
theorem mem_grows {f : DistO L → M (DistO L)} {own : DistO L → Multiset Blk}
    (h : ∀ V, Loses 1 (f V) (own V) own) (k : Nat) (V : DistO L) :
    Loses k ((List.range k).foldlM (fun (V : DistO L) _ => f V) V) (own V) own := by
  have key : ∀ (l : List Nat) (V : DistO L), Loses l.length (l.foldlM
      (fun (V : DistO L) _ => f V) V) (own V) own := by
    intro l
    induction l with
    | nil => exact fun V others => ⟨V, 0, by rw [add_zero]; rfl, rfl⟩
    | cons _ l ih =>
      intro V others
      obtain ⟨V1, x, h1, hx⟩ := h V others
      obtain ⟨V2, y, h2, hy⟩ := ih V1 (x + others)
      refine ⟨V2, y + x, ?_, by rw [Multiset.card_add, hx, hy, List.length_cons]⟩
      show Res.bind (f V _) _ = _
      rw [h1]
      rw [add_assoc _ x others]
      refine Eq.trans h2 ?_
      congr 2
      abel1
  have := key (List.range k) V
  rwa [List.length_range] at this

/-- Every call loses a grid: after `k` calls `k` blocks are lost. -/
theorem C85_distributed_diagonalize_grows (N : Nat) (cplx off : Bool) (A : DistO DenseO) (w : Blk) (k : Nat) :
    ∀ V : DistO DenseO, Loses k ((List.range k).foldlM
      (fun (V : DistO DenseO) _ => diagonalizeDenseTiles N cplx off A V w) V)
      (onRank (denseFmt N) A + onRank (denseFmt N) V + {w})
      fun V' => onRank (denseFmt N) A + onRank (denseFmt N) V' + {w} :=
  mem_grows (own := fun V => onRank (denseFmt N) A + onRank (denseFmt N) V + {w})
    (fun V => C85_distributed_diagonalize_leaks N cplx off A V w) k

/-- The same for tiles of the other formats: here for block-ELLPACK tiles, of which the calls replace those of
the eigenvectors every time. -/
theorem C85_distributed_diagonalize_ellblock_grows (N NB MB : Nat) (imp msg : Nat → Nat) (n m : Nat → Nat → Nat)
    (plain : Nat → Bool) (tr : List Move)
    (ht : ∀ x ∈ tr, ∃ i a b, x = .swap i a b ∧ i < NB ∧ a < NB ∧ b < NB) (cplx off : Bool)
    (A V : DistO BlkO) (w : Blk) (k : Nat) :
    let F := blkFmt N NB MB imp msg n m plain tr
    Loses k ((List.range k).foldlM (fun (V : DistO BlkO) _ => diagonalizeTiles N F
        (fun t => convertDense N t.blocks) (fun D => convertBlk N NB D.blocks) cplx off A V w) V)
      (onRank F A + onRank F V + {w}) fun V' => onRank F A + onRank F V' + {w} :=
  mem_grows (own := fun V => onRank (blkFmt N NB MB imp msg n m plain tr) A +
      onRank (blkFmt N NB MB imp msg n m plain tr) V + {w})
    (fun V => C85_distributed_diagonalize_ellblock_leaks N NB MB imp msg n m plain tr ht cplx off A V w) k V

/-- And for CSR tiles. -/
theorem C85_distributed_diagonalize_csr_grows (N : Nat) (imp msg tr : List (Nat × Bool)) (plain : Nat → Bool)
    (threads : Nat) (app : Nat → List (Nat × Bool)) (es : Nat → Nat → List Entry) (ht : ∀ x ∈ tr, x.1 < N)
    (full : Nat → Bool) (cplx off : Bool) (A V : DistO (CsrTile N)) (w : Blk) (k : Nat) :
    let F := csrFmt N imp msg tr plain threads app es
    Loses k ((List.range k).foldlM (fun (V : DistO (CsrTile N)) _ => diagonalizeTiles N F
        (fun t => convertDense N t.mat.blocks) (fun D => asTile N (convertCsr N D.array full)) cplx off A V w) V)
      (onRank F A + onRank F V + {w}) fun V' => onRank F A + onRank F V' + {w} :=
  mem_grows (own := fun V => onRank (csrFmt N imp msg tr plain threads app es) A +
      onRank (csrFmt N imp msg tr plain threads app es) V + {w})
    (fun V => C85_distributed_diagonalize_csr_leaks N imp msg tr plain threads app es ht full cplx off A V w) k V

/-- Two calls with block-ELLPACK tiles. -/
example : Res.okAnd (fun r => decide (r.2.card = 2 + 4)) (letI := exTop; (do
      let F := blkFmt 4 2 2 (fun _ => 1) (fun _ => 1) (fun _ _ => 1) (fun _ _ => 1) (fun _ => false) [.swap 1 0 1]
      let A ← newDist F
      let V ← newDist F
      let w ← malloc
      let V ← (List.range 2).foldlM (fun (V : DistO BlkO) _ => diagonalizeTiles 4 F
        (fun t => convertDense 4 t.blocks) (fun D => convertBlk 4 2 D.blocks) false true A V w) V
      free w
      A.deallocate F
      V.deallocate F : M Unit) 0) = true := by
  decide +kernel

/-- Two calls on a rank off the diagonal, complex elements; everything released, two grids and two pairs of
communicators remain. -/
example : Res.okAnd (fun r => decide (r.2.card = 2 + 4)) (letI := exTop; (do
      let A ← newDist (denseFmt 2)
      let V ← newDist (denseFmt 2)
      let w ← malloc
      let V ← diagonalizeDenseTiles 2 true true A V w
      let V ← diagonalizeDenseTiles 2 true true A V w
      free w
      A.deallocate (denseFmt 2)
      V.deallocate (denseFmt 2) : M Unit) 0) = true := by
  decide +kernel

/-- ELLPACK tiles, real elements. -/
example : Res.okAnd (fun r => decide (r.2.card = 1 + 4)) (letI := exTop; (do
      let F := ellFmt 2 fun _ => false
      let A ← newDist F
      let V ← newDist F
      let w ← malloc
      let V ← diagonalizeTiles 2 F (fun t => convertDense 2 t.blocks) (fun D => convertEll 2 D.blocks)
        false false A V w
      free w
      A.deallocate F
      V.deallocate F : M Unit) 0) = true := by
  decide +kernel

/-- CSR tiles of two rows, complex elements; row 1 grows in the conversion and in the transpose. -/
example : Res.okAnd (fun r => decide (r.2.card = 1 + 4)) (letI := exTop; (do
      let F := csrFmt 2 [] [] [(1, true)] (fun _ => false) 1 (fun _ => []) (fun _ _ => [])
      let A ← newDist F
      let V ← newDist F
      let w ← malloc
      let V ← diagonalizeTiles 2 F (fun t => convertDense 2 t.mat.blocks)
        (fun D => asTile 2 (convertCsr 2 D.array fun i => decide (i = 1))) true true A V w
      free w
      A.deallocate F
      V.deallocate F : M Unit) 0) = true := by
  decide +kernel

/-- Block-ELLPACK tiles with two block rows; the transpose exchanges the submatrices of row 1. -/
example : Res.okAnd (fun r => decide (r.2.card = 1 + 4)) (letI := exTop; (do
      let F := blkFmt 4 2 2 (fun _ => 1) (fun _ => 1) (fun _ _ => 1) (fun _ _ => 1) (fun _ => false) [.swap 1 0 1]
      let A ← newDist F
      let V ← newDist F
      let w ← malloc
      let V ← diagonalizeTiles 4 F (fun t => convertDense 4 t.blocks) (fun D => convertBlk 4 2 D.blocks)
        false true A V w
      free w
      A.deallocate F
      V.deallocate F : M Unit) 0) = true := by
  decide +kernel

omit [Allocator] in
/-- With ELLPACK tiles the matrix itself cannot take the eigenvectors: its tile is released, and then asked for
its type.  With dense tiles it can. -/
theorem C85_distributed_diagonalize_in_place : ∃ al : Allocator,
    (letI := al; (do
      let F := ellFmt 2 fun _ => false
      let A ← newDist F
      let w ← malloc
      let _ ← diagonalizeTiles 2 F (fun t => convertDense 2 t.blocks) (fun D => convertEll 2 D.blocks)
        false false A A w
      pure () : M Unit) 0) = .ub ∧
    Res.okAnd (fun _ => true) (letI := al; (do
      let A ← newDist (denseFmt 2)
      let w ← malloc
      let _ ← diagonalizeDenseTiles 2 false false A A w
      pure () : M Unit) 0) = true :=
  ⟨exTop, Res.eq_ub_of_isUb (by decide +kernel), by decide +kernel⟩

end Props
end Bml
