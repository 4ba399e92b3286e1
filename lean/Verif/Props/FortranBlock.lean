import Verif.Fortran.Block
import Verif.Props.FortranDense
import Verif.Props.Ellblock3

/-!
# C72 and C73: block-ELLPACK matrices through the Fortran interface

Indices count from one.  `InBlock A i ib`: row (or column) `i` lies in block `ib`.
-/

namespace Bml.Spec

/-- Row or column `i`, counted from one, belongs to block `ib`: the blocks before it have fewer than
`i` rows, those up to it have `i` or more. -/
def InBlock {R : Type} (A : EllB R) (i ib : Nat) : Prop :=
  ib < A.NB ∧ ∑ k ∈ Finset.range ib, A.bsize.get k < i ∧
    i ≤ ∑ k ∈ Finset.range (ib + 1), A.bsize.get k

end Bml.Spec

namespace Bml.Props

open Bml Bml.Fortran
open Bml.Elemental (Kind)

variable {R : Type} [CommRing R]

/-- Every row has its block. -/
theorem block_of {N : Nat} {A : EllB R} {a : Spec.Mat R} (hA : A.Represents N a) {i : Nat}
    (h1 : 1 ≤ i) (hi : i ≤ N) : ∃ ib ii, ib < A.NB ∧ ii < A.bsize.get ib ∧
      EllB.off A.bsize.get ib + ii = i - 1 ∧ Spec.InBlock A i ib := by
  obtain ⟨L, h⟩ := EllB.represents_iff.1 hA
  obtain ⟨ib, ii, q1, q2, q3⟩ := h.surj (i := i - 1) (by omega)
  refine ⟨ib, ii, q1, q2, q3, q1, ?_, ?_⟩
  · have : ∑ k ∈ Finset.range ib, A.bsize.get k = EllB.off A.bsize.get ib := rfl
    omega
  · have : ∑ k ∈ Finset.range (ib + 1), A.bsize.get k = EllB.off A.bsize.get (ib + 1) := rfl
    rw [this, EllB.off_succ]
    omega

/-- **C72** `bml_get_row` of a block-ELLPACK matrix. -/
theorem C72_block_get_row {N : Nat} {A : EllB R} {a : Spec.Mat R} (hA : A.Represents N a) (f : Kind)
    (junk : Nat → R) {i : Nat} (h1 : 1 ≤ i) (hi : i ≤ N) :
    ∃ r, Block.getRow f f junk A i = .ok r ∧ r.size = N ∧
      ∀ j, 1 ≤ j → j ≤ N → at1 r j = elem1 a i j := by
  obtain ⟨x, e, hx, hg⟩ := C54_get_row hA (i := i - 1) (by omega)
  obtain ⟨r, e', hr, hg'⟩ := copyOut_ok junk (n := N) (x := x) (by omega)
  refine ⟨r, ?_, hr, fun j h2 h3 => ?_⟩
  · unfold Block.getRow
    rw [typed_same, cIndex_ok h1, Res.bind_ok, e, Res.bind_ok, hA.dim, e']
  · exact (hg' _ (by omega)).trans (hg _ (by omega))

/-- **C72** `bml_get_diagonal` of a block-ELLPACK matrix. -/
theorem C72_block_get_diagonal {N : Nat} {A : EllB R} {a : Spec.Mat R} (hA : A.Represents N a)
    (f : Kind) (junk : Nat → R) :
    ∃ r, Block.getDiagonal f f junk A = .ok r ∧ r.size = N ∧
      ∀ i, 1 ≤ i → i ≤ N → at1 r i = elem1 a i i := by
  obtain ⟨x, e, hx, hg⟩ := C54_get_diagonal hA
  obtain ⟨r, e', hr, hg'⟩ := copyOut_ok junk (n := N) (x := x) (by omega)
  refine ⟨r, ?_, hr, fun i h2 h3 => ?_⟩
  · unfold Block.getDiagonal
    rw [typed_same, e, Res.bind_ok, hA.dim, e']
  · exact (hg' _ (by omega)).trans (hg _ (by omega))

/-- **C72** `bml_set_element` and `bml_set_element_new` of a block-ELLPACK matrix whose unused cells
are empty: if the block of the element is stored or its block row has room, the element is written and
no other changes; otherwise the program stops with an error. -/
theorem C72_block_set_element {N : Nat} {A : EllB R} {a : Spec.Mat R} (hA : A.Represents N a)
    (hC : A.Clean) (f : Kind) (junk : Nat → R) {i j : Nat} (h1 : 1 ≤ i) (hi : i ≤ N) (h2 : 1 ≤ j)
    (hj : j ≤ N) (v : R) :
    ((∀ ib jb, Spec.InBlock A i ib → Spec.InBlock A j jb → A.Has ib jb ∨ A.nnzb.get ib < A.MB) →
      ∃ A', Block.setElement f f A i j v = .ok A' ∧ A'.Clean ∧
        ∀ i', 1 ≤ i' → i' ≤ N → ∃ r, Block.getRow f f junk A' i' = .ok r ∧ r.size = N ∧
          ∀ j', 1 ≤ j' → j' ≤ N → at1 r j' = if i' = i ∧ j' = j then v else elem1 a i' j') ∧
    ((∀ ib jb, Spec.InBlock A i ib → Spec.InBlock A j jb → ¬ A.Has ib jb ∧ A.nnzb.get ib = A.MB) →
      Block.setElement f f A i j v = .error) := by
  obtain ⟨ib, ii, p1, p2, p3, p4⟩ := block_of hA h1 hi
  obtain ⟨jb, jj, q1, q2, q3, q4⟩ := block_of hA h2 hj
  have hset := C38_set_element hA hC p1 p2 q1 q2 v
  rw [p3, q3] at hset
  have hcall : Block.setElement f f A i j v = A.setElement (i - 1) (j - 1) v := by
    unfold Block.setElement
    rw [typed_same, cIndex_ok h1, Res.bind_ok, cIndex_ok h2, Res.bind_ok]
  refine ⟨fun hroom => ?_, fun hfull => ?_⟩
  · obtain ⟨A', e, c1, -, c3⟩ := hset.1 (hroom ib jb p4 q4)
    refine ⟨A', hcall.trans e, c1, fun i' g1 g2 => ?_⟩
    obtain ⟨r, e', hr, hg⟩ := C72_block_get_row c3 f junk g1 g2
    exact ⟨r, e', hr, fun j' g3 g4 => (hg j' g3 g4).trans (set_elem1 a h1 h2 v g1 g3)⟩
  · exact hcall.trans (hset.2 (hfull ib jb p4 q4))

/-- **C72** With room for all block columns (`m = n` in Fortran), `bml_set_element` always writes. -/
theorem C72_block_set_element_room {N : Nat} {A : EllB R} {a : Spec.Mat R} (hA : A.Represents N a)
    (hC : A.Clean) (hMB : A.NB ≤ A.MB) (f : Kind) (junk : Nat → R) {i j : Nat} (h1 : 1 ≤ i)
    (hi : i ≤ N) (h2 : 1 ≤ j) (hj : j ≤ N) (v : R) :
    ∃ A', Block.setElement f f A i j v = .ok A' ∧ A'.Clean ∧
      ∀ i', 1 ≤ i' → i' ≤ N → ∃ r, Block.getRow f f junk A' i' = .ok r ∧ r.size = N ∧
        ∀ j', 1 ≤ j' → j' ≤ N → at1 r j' = if i' = i ∧ j' = j then v else elem1 a i' j' := by
  obtain ⟨L, h⟩ := EllB.represents_iff.1 hA
  refine (C72_block_set_element hA hC f junk h1 hi h2 hj v).1 fun ib jb hib hjb => ?_
  by_cases hm : A.Has ib jb
  · exact Or.inl hm
  · right
    rw [h.is.nz ib hib.1]
    exact h.card_le hib.1 hMB hjb.1 (fun hc => hm ((h.has_iff hib.1).2 hc))

/-- **C72** `bml_set_element` does not check its indices for a block-ELLPACK matrix: a row number
above `N` makes it read beyond the block sizes. -/
theorem C72_block_set_element_range {N : Nat} {A : EllB R} {a : Spec.Mat R} (hA : A.Represents N a)
    (f : Kind) {i j : Nat} (h : N < i) (hj : 1 ≤ j) (v : R) :
    Block.setElement f f A i j v = .ub := by
  unfold Block.setElement
  rw [typed_same, cIndex_ok (by omega), cIndex_ok hj, Res.bind_ok, Res.bind_ok]
  exact C38_set_element_out_of_range hA (by omega) _ v

example : Block.setElement .doubleReal .doubleReal ebA (6 : Nat) (1 : Nat) 1 = .ub :=
  C72_block_set_element_range ebA_spec.1 .doubleReal (by decide) (by decide) 1

/-- **C72 (partial)** `bml_set_row` of a block-ELLPACK matrix in whose block row the new blocks fit:
the entries above threshold are written and no other element changes.  Partial: the other entries of
the row keep their old values, see `C72_block_set_row_keeps_old`. -/
theorem C72_block_set_row_partial {N : Nat} {A : EllB R} {a : Spec.Mat R} (hA : A.Represents N a)
    (f : Kind) (nonzero : R → Bool) (junk : Nat → R) {i : Nat} (h1 : 1 ≤ i) (hi : i ≤ N)
    {row : Arr R} (hrow : N ≤ row.size) (t : Option (R → Bool))
    (hfit : ∀ ib, Spec.InBlock A i ib → A.RowFits (test nonzero t) row.get ib) :
    ∃ A', Block.setRow f f nonzero A i row t = .ok A' ∧
      ∀ i', 1 ≤ i' → i' ≤ N → ∃ r, Block.getRow f f junk A' i' = .ok r ∧ r.size = N ∧
        ∀ j, 1 ≤ j → j ≤ N → at1 r j =
          if i' = i ∧ test nonzero t (at1 row j) = true then at1 row j else elem1 a i' j := by
  obtain ⟨ib, ii, p1, p2, p3, p4⟩ := block_of hA h1 hi
  obtain ⟨A', e, -, -, h⟩ := C54_set_row_partial hA (test nonzero t) p1 p2 hrow (hfit ib p4)
  rw [p3] at e h
  refine ⟨A', ?_, fun i' g1 g2 => ?_⟩
  · unfold Block.setRow
    rw [typed_same, cIndex_ok h1, Res.bind_ok, e]
  · obtain ⟨r, e', hr, hg⟩ := C72_block_get_row h f junk g1 g2
    refine ⟨r, e', hr, fun j g3 g4 => ?_⟩
    rw [hg j g3 g4]
    unfold elem1 at1
    by_cases he : i' = i
    · subst he; simp
    · have : ¬ (i' - 1 = i - 1) := by omega
      simp [he, this]

/-- **C72 (partial)** `bml_set_diagonal` of a block-ELLPACK matrix in which the new blocks fit: no
element off the diagonal changes; on the diagonal the values of every block that has one above
threshold are written, and those of the other blocks become zero.  Partial: the threshold is applied
to blocks, not to elements. -/
theorem C72_block_set_diagonal_partial {N : Nat} {A : EllB R} {a : Spec.Mat R}
    (hA : A.Represents N a) (f : Kind) (nonzero : R → Bool) (junk : Nat → R) {d : Arr R}
    (hd : N ≤ d.size) (t : Option (R → Bool)) (hfit : A.DiagFits (test nonzero t) d.get) :
    ∃ A', Block.setDiagonal f f nonzero A d t = .ok A' ∧
      ∀ i, 1 ≤ i → i ≤ N → ∃ r, Block.getRow f f junk A' i = .ok r ∧ r.size = N ∧
        (∀ j, 1 ≤ j → j ≤ N → i ≠ j → at1 r j = elem1 a i j) ∧
        ((∃ ib k, Spec.InBlock A i ib ∧ Spec.InBlock A k ib ∧ test nonzero t (at1 d k) = true) →
          at1 r i = at1 d i) ∧
        ((∀ ib k, Spec.InBlock A i ib → Spec.InBlock A k ib → test nonzero t (at1 d k) = false) →
          at1 r i = 0) := by
  classical
  obtain ⟨A', e, -, -, hwf, hN, h1, h2⟩ := C54_set_diagonal_partial hA (test nonzero t) hd hfit
  have hex : ∀ i j, ∃ v, i < N → j < N → A'.getElement (i : Nat) (j : Nat) = .ok v := by
    intro i j
    by_cases hij : i < N ∧ j < N
    · by_cases hne : i = j
      · subst hne
        by_cases hb : ∃ i', EllB.Together A.bsize.get i i' ∧ test nonzero t (d.get i') = true
        · exact ⟨_, fun _ _ => (h2 i hij.1).1 hb⟩
        · refine ⟨_, fun _ _ => (h2 i hij.1).2 fun i' hi' => ?_⟩
          by_contra hc
          exact hb ⟨i', hi', by simpa using hc⟩
      · exact ⟨_, fun _ _ => h1 i j hij.1 hij.2 hne⟩
    · exact ⟨0, fun h3 h4 => absurd ⟨h3, h4⟩ hij⟩
  choose b hb using hex
  have hR : A'.Represents N b := ⟨hwf, hN, fun i j hi hj => hb i j hi hj⟩
  refine ⟨A', ?_, fun i g1 g2 => ?_⟩
  · unfold Block.setDiagonal
    rw [typed_same, e]
  · obtain ⟨r, e', hr, hg⟩ := C72_block_get_row hR f junk g1 g2
    refine ⟨r, e', hr, fun j g3 g4 hne => ?_, ?_, ?_⟩
    · rw [hg j g3 g4]
      have e1 := h1 (i - 1) (j - 1) (by omega) (by omega) (by omega)
      rw [hb (i - 1) (j - 1) (by omega) (by omega)] at e1
      exact Res.ok.inj e1
    · rintro ⟨ib, k, ⟨k1, k2, k3⟩, ⟨l1, l2, l3⟩, hk⟩
      rw [hg i g1 g2]
      have e1 := (h2 (i - 1) (by omega)).1 ⟨k - 1, ⟨ib, by
        unfold EllB.off; omega, by unfold EllB.off; omega, by unfold EllB.off; omega, by
        unfold EllB.off; omega⟩, hk⟩
      rw [hb (i - 1) (i - 1) (by omega) (by omega)] at e1
      exact Res.ok.inj e1
    · intro hall
      rw [hg i g1 g2]
      obtain ⟨ib, ii, p1, p2, p3, p4⟩ := block_of hA g1 g2
      have e1 := (h2 (i - 1) (by omega)).2 fun i' hi' => by
        rw [← p3] at hi'
        obtain ⟨ii', q1, rfl⟩ := (EllB.together_iff p2 _).1 hi'
        have := hall ib (EllB.off A.bsize.get ib + ii' + 1) p4 ⟨p1, by
          show EllB.off A.bsize.get ib < _; omega, by
          show _ ≤ EllB.off A.bsize.get (ib + 1)
          rw [EllB.off_succ]; omega⟩
        exact this
      rw [hb (i - 1) (i - 1) (by omega) (by omega)] at e1
      exact Res.ok.inj e1

/-- **C72 fails** for block-ELLPACK: `bml_get_element` and `bml_get_row_bandwidth` stop the program
for every matrix and every index. -/
theorem C72_block_refused (f p : Kind) (A : EllB R) (i j : Int) :
    Block.getElement f p A i j = .error ∧ Block.rowBandwidth A i = .error :=
  ⟨rfl, by unfold Block.rowBandwidth; split <;> rfl⟩

/-! ## Import and export -/

/-- **C73 (partial)** `bml_import_from_dense` into the block format of an array whose columns lie one
after the other, with at least as many columns as rows, while the block sizes in force are those of
matrices of this size: element `(i,j)` of the matrix is element `(i,j)` of the array if some element in
its block is above threshold, and zero if none is.  Partial: the blocks above threshold must fit, and
see `C73_block_wrong_size`. -/
theorem C73_block_import_partial {g : EllB.Glob} {S : Section R} (hc : Contiguous S) (hv : S.Valid)
    (h12 : S.n1 ≤ S.n2) {m : Nat} (hm : m ≤ S.n1) (hg : g.For S.n1 m) (nonzero : R → Bool)
    (t : Option (R → Bool)) (junk junk' : Nat → R) (f : Kind) :
    ∃ g' b, EllB.getBlockSizes g S.n1 m = .ok (g', b) ∧
      (EllB.BlocksFit (test nonzero t) b.get g'.nb g'.mb (fun i j => S.elem (i + 1) (j + 1)) →
      ∃ A, Block.importFromDense g S nonzero t (some m) junk = .ok (g', A) ∧ A.Clean ∧ A.N = S.n1 ∧
        ∀ i, 1 ≤ i → i ≤ S.n1 → ∃ r, Block.getRow f f junk' A i = .ok r ∧ r.size = S.n1 ∧
          ∀ j, 1 ≤ j → j ≤ S.n1 →
            ((∃ i' j', EllB.Together b.get (i - 1) (i' - 1) ∧ EllB.Together b.get (j - 1) (j' - 1) ∧
              1 ≤ i' ∧ 1 ≤ j' ∧ test nonzero t (S.elem i' j') = true) → at1 r j = S.elem i j) ∧
            ((∀ i' j', 1 ≤ i' → 1 ≤ j' → EllB.Together b.get (i - 1) (i' - 1) →
              EllB.Together b.get (j - 1) (j' - 1) → test nonzero t (S.elem i' j') = false) →
                at1 r j = 0)) := by
  classical
  have hce : ∀ i j, S.passed.get (COLMAJOR i j S.n1 S.n1) = S.elem (i + 1) (j + 1) :=
    fun i j => cElem_contiguous hc i j
  have hs := passed_size hc hv h12
  obtain ⟨g', b, e, h⟩ := C55_import_partial hm hg (addr := fun i j => COLMAJOR i j S.n1 S.n1)
    (test nonzero t) (dense := S.passed) (junk := junk) (fun i j hi hj => by
      have : j * S.n1 + i < S.n1 * S.n1 := addr_lt hj hi
      show i + j * S.n1 < _
      omega)
  refine ⟨g', b, e, fun hfit => ?_⟩
  simp only [hce] at h
  obtain ⟨A, e1, -, h2, h3, h4, h5⟩ := h hfit
  have hex : ∀ i j, ∃ v, i < S.n1 → j < S.n1 → A.getElement (i : Nat) (j : Nat) = .ok v := by
    intro i j
    by_cases hij : i < S.n1 ∧ j < S.n1
    · by_cases hb : ∃ i' j', EllB.Together b.get i i' ∧ EllB.Together b.get j j' ∧
          test nonzero t (S.elem (i' + 1) (j' + 1)) = true
      · exact ⟨_, fun _ _ => (h5 i j hij.1 hij.2).1 hb⟩
      · refine ⟨_, fun _ _ => (h5 i j hij.1 hij.2).2 fun i' j' hi' hj' => ?_⟩
        by_contra hc'
        exact hb ⟨i', j', hi', hj', by simpa using hc'⟩
    · exact ⟨0, fun q1 q2 => absurd ⟨q1, q2⟩ hij⟩
  choose x hx using hex
  have hR : A.Represents S.n1 x := ⟨h3, h4, fun i j hi hj => hx i j hi hj⟩
  refine ⟨A, e1, h2, h4, fun i g1 g2 => ?_⟩
  obtain ⟨r, e', hr, hgr⟩ := C72_block_get_row hR f junk' g1 g2
  refine ⟨r, e', hr, fun j g3 g4 => ⟨?_, ?_⟩⟩
  · rintro ⟨i', j', q1, q2, q3, q4, q5⟩
    rw [hgr j g3 g4]
    have e2 := (h5 (i - 1) (j - 1) (by omega) (by omega)).1 ⟨i' - 1, j' - 1, q1, q2, by
      rw [Nat.sub_add_cancel q3, Nat.sub_add_cancel q4]; exact q5⟩
    rw [hx (i - 1) (j - 1) (by omega) (by omega), Nat.sub_add_cancel g1, Nat.sub_add_cancel g3] at e2
    exact Res.ok.inj e2
  · intro hall
    rw [hgr j g3 g4]
    have e2 := (h5 (i - 1) (j - 1) (by omega) (by omega)).2 fun i' j' q1 q2 =>
      hall (i' + 1) (j' + 1) (by omega) (by omega) q1 q2
    rw [hx (i - 1) (j - 1) (by omega) (by omega)] at e2
    exact Res.ok.inj e2

/-- `bml_export_to_dense` of a block-ELLPACK matrix without empty blocks, on the first process. -/
theorem block_export_rep {N : Nat} {A : EllB R} {a : Spec.Mat R} (hA : A.Represents N a)
    (hN : 0 < N) (hpos : ∀ ib, ib < A.NB → 0 < A.bsize.get ib) (f : Kind) (junk : Nat → R)
    (old : Option (Section R)) :
    ∃ S, Block.exportToDense f f 0 A junk old = .ok (some S, 0) ∧ Contiguous S ∧ S.Valid ∧
      S.n1 = N ∧ S.n2 = N ∧ ∀ i j, 1 ≤ i → i ≤ N → 1 ≤ j → j ≤ N → S.elem i j = elem1 a i j := by
  obtain ⟨x, e, hx, hg⟩ := C55_export hA hN hpos (Or.inr rfl)
  obtain ⟨y, e', hy, hg'⟩ := copyOut_ok junk (n := N * N) (x := x) (by omega)
  refine ⟨Section.whole y N N, ?_, ⟨rfl, rfl⟩, ?_, rfl, rfl, ?_⟩
  · unfold Block.exportToDense
    rw [typed_same, hA.dim, e, Res.bind_ok, if_pos rfl, e']
    rfl
  · intro i j h1 h2 h3 h4
    have hlt : (i - 1) + (j - 1) * N < N * N := by
      have : (j - 1) * N + (i - 1) < N * N := addr_lt (by simp only [Section.whole] at h4; omega)
        (by simp only [Section.whole] at h2; omega)
      omega
    have e2 : (Section.whole y N N).pos i j = (((i - 1) + (j - 1) * N : Nat) : Int) := by
      unfold Section.pos Section.whole
      push_cast [h1, h3]
      ring
    rw [e2]
    have : (Section.whole y N N).mem.size = N * N := hy
    rw [this]
    exact ⟨Int.natCast_nonneg _, by exact_mod_cast hlt⟩
  · intro i j h1 h2 h3 h4
    have hlt : (i - 1) + (j - 1) * N < N * N := by
      have : (j - 1) * N + (i - 1) < N * N := addr_lt (by omega) (by omega)
      omega
    have e2 : (Section.whole y N N).pos i j = (((i - 1) + (j - 1) * N : Nat) : Int) := by
      unfold Section.pos Section.whole
      push_cast [h1, h3]
      ring
    unfold Section.elem
    rw [e2, Int.toNat_natCast]
    exact (hg' _ hlt).trans (hg (i - 1) (j - 1) (by omega) (by omega))

/-- **C73 (partial)** On the first process `bml_export_to_dense` of a block-ELLPACK matrix without
empty blocks leaves in the caller's variable an `N × N` array with the elements of the matrix, and
frees the intermediate array; on every other process the variable stays as it was and the array is
never freed. -/
theorem C73_block_export_partial {N : Nat} {A : EllB R} {a : Spec.Mat R} (hA : A.Represents N a)
    (hN : 0 < N) (hpos : ∀ ib, ib < A.NB → 0 < A.bsize.get ib) (f : Kind) (junk : Nat → R)
    (old : Option (Section R)) :
    (∃ S, Block.exportToDense f f 0 A junk old = .ok (some S, 0) ∧ S.n1 = N ∧ S.n2 = N ∧
      ∀ i j, 1 ≤ i → i ≤ N → 1 ≤ j → j ≤ N → S.elem i j = elem1 a i j) ∧
    ∀ rank, rank ≠ 0 → Block.exportToDense f f rank A junk old = .ok (old, 1) := by
  refine ⟨?_, fun rank hr => ?_⟩
  · obtain ⟨S, e, -, -, h⟩ := block_export_rep hA hN hpos f junk old
    exact ⟨S, e, h⟩
  · obtain ⟨x, e, -⟩ := C55_export hA hN hpos (Or.inr rfl)
    unfold Block.exportToDense
    rw [typed_same, hA.dim, e, Res.bind_ok, if_neg hr]
    rfl

/-- **C73 (partial)** What is exported can be imported again, by a program in which the block sizes in
force are those of matrices of this size and every block has room (`m = n`), and has the same rows. -/
theorem C73_block_export_import_partial {N : Nat} {A : EllB R} {a : Spec.Mat R}
    (hA : A.Represents N a) (hN : 0 < N) (hpos : ∀ ib, ib < A.NB → 0 < A.bsize.get ib) (f : Kind)
    (junk junk' junk'' : Nat → R) (old : Option (Section R)) {g : EllB.Glob} {m : Nat} (hm : m ≤ N)
    (hg : g.For N m) {nonzero : R → Bool} (hz : ∀ x, nonzero x = true ↔ x ≠ 0) :
    ∃ S g' b, Block.exportToDense f f 0 A junk old = .ok (some S, 0) ∧
      EllB.getBlockSizes g N m = .ok (g', b) ∧ (g'.nb ≤ g'.mb →
      ∃ B, Block.importFromDense g S nonzero none (some m) junk' = .ok (g', B) ∧
        ∀ i, 1 ≤ i → i ≤ N → ∃ r, Block.getRow f f junk'' B i = .ok r ∧ r.size = N ∧
          ∀ j, 1 ≤ j → j ≤ N → at1 r j = elem1 a i j) := by
  obtain ⟨S, e, hc, hv, h1, h2, h3⟩ := block_export_rep hA hN hpos f junk old
  subst h1
  obtain ⟨g', b, e1, h⟩ := C73_block_import_partial hc hv (by omega) hm hg nonzero none junk' junk'' f
  obtain ⟨g2, b2, e2, hset⟩ := EllB.wp_getBlockSizes hg hm
  rw [e1] at e2
  obtain ⟨rfl, rfl⟩ : g' = g2 ∧ b = b2 := by
    have := Res.ok.inj e2
    exact ⟨congrArg Prod.fst this, congrArg Prod.snd this⟩
  have hself : ∀ i, 1 ≤ i → i ≤ S.n1 → EllB.Together b.get (i - 1) (i - 1) := fun i hi1 hi2 => by
    obtain ⟨ib, ii, q1, q2, q3⟩ := EllB.off_surj b.get g'.nb (i - 1) (by rw [hset.sum]; omega)
    rw [← q3]
    exact (EllB.together_iff q2 _).2 ⟨ii, q2, rfl⟩
  refine ⟨S, g', b, e, e1, fun hroom => ?_⟩
  obtain ⟨B, e3, -, -, h5⟩ := h (EllB.blocksFit_of_le hroom _)
  refine ⟨B, e3, fun i g1 g2 => ?_⟩
  obtain ⟨r, e4, hr, hj⟩ := h5 i g1 g2
  refine ⟨r, e4, hr, fun j g3 g4 => ?_⟩
  rw [← h3 i j g1 g2 g3 g4]
  by_cases hb : ∃ i' j', EllB.Together b.get (i - 1) (i' - 1) ∧ EllB.Together b.get (j - 1) (j' - 1) ∧
      1 ≤ i' ∧ 1 ≤ j' ∧ test nonzero none (S.elem i' j') = true
  · exact (hj j g3 g4).1 hb
  · have hz0 : S.elem i j = 0 := by
      by_contra hne
      exact hb ⟨i, j, hself i g1 g2, hself j g3 g4, g1, g3, (hz _).2 hne⟩
    rw [hz0]
    refine (hj j g3 g4).2 fun i' j' q1 q2 q3 q4 => ?_
    by_contra hc'
    exact hb ⟨i', j', q3, q4, q1, q2, by simpa using hc'⟩

omit [CommRing R] in
/-- **C73** Without the number of nonzeros per row, the import stops the program. -/
theorem C73_block_missing_m (g : EllB.Glob) (S : Section R) (nonzero : R → Bool)
    (t : Option (R → Bool)) (junk : Nat → R) :
    Block.importFromDense g S nonzero t none junk = .error := rfl

/-! ## Where it fails, and the hypotheses are met -/

/-- **C72 fails** for block-ELLPACK: after `bml_set_row` without a threshold, `bml_get_row` does not
return the row.  Here the zero row is written, and the old elements `-1` and `2` are still there. -/
theorem C72_block_set_row_keeps_old :
    Res.okAnd (fun r : Arr Int => r.get 0 == -1 && r.get 4 == 2)
      (Block.setRow .doubleReal .doubleReal nzI ebA 5 ⟨5, fun _ => 0⟩ none >>= fun A' =>
        Block.getRow .doubleReal .doubleReal (fun _ => 0) A' 5) = true := by decide +kernel

/-- **C73 fails** for block-ELLPACK: once a 4 × 4 array was imported, the import of an 8 × 8 array
gives a 4 × 4 matrix, without an error. -/
theorem C73_block_wrong_size :
    Res.okAnd (fun r : EllB.Glob × EllB Int => r.2.N == 4)
      (Block.importFromDense EllB.Glob.init (Section.whole ⟨16, fun _ => 1⟩ 4 4) nzI none (some 4)
          (fun _ => 0) >>= fun r =>
        Block.importFromDense r.1 (Section.whole ⟨64, fun _ => 1⟩ 8 8) nzI none (some 4)
          (fun _ => 0)) = true := by decide +kernel

/-- `ebA` is a 5 × 5 matrix with blocks of 4 and 1; row 5 is its second block. -/
example : ∃ r, Block.getRow .doubleReal .doubleReal (fun _ => 9) ebA (5 : Nat) = .ok r ∧
    at1 r 1 = -1 ∧ at1 r 5 = 2 := by
  obtain ⟨r, e, -, h⟩ := C72_block_get_row ebA_spec.1 .doubleReal (fun _ => 9) (i := 5) (by decide)
    (by decide)
  exact ⟨r, e, h 1 (by decide) (by decide), h 5 (by decide) (by decide)⟩

example : Spec.InBlock ebA 5 1 ∧ ¬ Spec.InBlock ebA 4 1 := by
  constructor
  · exact ⟨by decide, by decide, by decide⟩
  · rintro ⟨-, h, -⟩
    revert h
    decide

example : ∃ A', Block.setElement .doubleReal .doubleReal ebA (5 : Nat) (3 : Nat) 8 = .ok A' :=
  (C72_block_set_element_room ebA_spec.1 ebA_spec.2.1 (by decide) .doubleReal (fun _ => 0)
    (by decide) (by decide) (by decide) (by decide) 8).imp fun _ h => h.1

example : ∃ A', Block.setRow .doubleReal .doubleReal nzI ebA (5 : Nat) ⟨5, fun k => (k : Int)⟩ none =
    .ok A' :=
  (C72_block_set_row_partial ebA_spec.1 .doubleReal nzI (fun _ => 0) (by decide) (by decide)
    (by decide) none fun ib _ => ⟨Finset.range 2, by decide, fun jb hjb _ =>
      Finset.mem_range.2 hjb⟩).imp fun _ h => h.1

example : ∃ A', Block.setDiagonal .doubleReal .doubleReal nzI ebA ⟨5, fun k => (k : Int)⟩ none =
    .ok A' :=
  (C72_block_set_diagonal_partial ebA_spec.1 .doubleReal nzI (fun _ => 0) (by decide) none (by
      intro ib hib _
      have hib' : ib < 2 := hib
      left
      interval_cases ib
      · exact ⟨1, by decide, by decide⟩
      · exact ⟨0, by decide, by decide⟩)).imp fun _ h => h.1

/-- `ebA` is exported and imported again at program start. -/
example : ∃ S g' b, Block.exportToDense .doubleReal .doubleReal 0 ebA (fun _ => 7) none =
      .ok (some S, 0) ∧ EllB.getBlockSizes EllB.Glob.init 5 5 = .ok (g', b) ∧ (g'.nb ≤ g'.mb →
    ∃ B, Block.importFromDense EllB.Glob.init S nzI none (some 5) (fun _ => 7) = .ok (g', B) ∧
      ∀ i : Nat, 1 ≤ i → i ≤ 5 → ∃ r, Block.getRow .doubleReal .doubleReal (fun _ => 7) B i = .ok r ∧
        r.size = 5 ∧ ∀ j, 1 ≤ j → j ≤ 5 → at1 r j = elem1 ebAm i j) :=
  C73_block_export_import_partial ebA_spec.1 (by decide) (by
    intro ib hib
    have hib' : ib < 2 := hib
    interval_cases ib <;> decide) .doubleReal _ _ _ none le_rfl (Or.inl ⟨rfl, by decide⟩)
    (fun x => by simp [nzI])

example : Res.okAnd (fun r : EllB.Glob × Arr Nat => decide (r.1.nb ≤ r.1.mb))
    (EllB.getBlockSizes EllB.Glob.init 5 5) = true := by decide

end Bml.Props
