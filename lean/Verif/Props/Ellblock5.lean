import Verif.Props.Ellblock4
import Verif.Ellblock.Ops21

/-!
# Property theorems: transposition of block-ELLPACK matrices (C64)

`Spec.transpose a i j = a j i`.
-/

namespace Bml.Props

open Bml

variable {R : Type} [CommRing R]

/-! ## C64 -/

/-- **C64**, `bml_transpose_new`, partial: the new matrix has the transposed elements and the
transposed block pattern, if no block column has more blocks than a block row has room for. -/
theorem C64_transpose_new_partial {N : Nat} {A : EllB R} {a : Spec.Mat R} (hA : A.Represents N a)
    (hMB : 0 < A.MB) (hM : A.M ≤ N) (hNB : 0 < A.NB)
    (hbs : ∀ ib, ib < A.NB → A.bsize.get ib < 1000000) {g : EllB.Glob} (hg : g.mb ≠ 0)
    (junk : Nat → R) (hfit : A.ColsFit) :
    ∃ B, EllB.transposeNew g junk A = .ok (g, B) ∧ EllB.Same A B ∧ B.Clean ∧
      B.Represents N (Spec.transpose a) ∧
      ∀ ib jb, ib < A.NB → jb < A.NB → (B.Has jb ib ↔ A.Has ib jb) := by
  obtain ⟨L, h⟩ := EllB.represents_iff.1 hA
  obtain ⟨⟨g', B⟩, e, h1, h2, h3, ⟨LB, h4⟩, h5⟩ :=
    Res.wp_exists (h.wp_transposeNew hMB hM hNB hbs hg junk hfit)
  simp only at h1 h2 h3 h4 h5
  subst h1
  exact ⟨B, e, h2, h3, EllB.represents_iff.2 ⟨LB, h4⟩, h5⟩

/-- If every block row has room for all blocks, the condition holds. -/
theorem colsFit_of_le {A : EllB R} (h : A.NB ≤ A.MB) : A.ColsFit ∧ A.SymColsFit :=
  ⟨fun _ _ => ⟨Finset.range A.NB, by rw [Finset.card_range]; exact h, fun _ hi _ =>
    Finset.mem_range.2 hi⟩,
   fun _ _ => ⟨Finset.range A.NB, by rw [Finset.card_range]; exact h, fun _ hi _ =>
    Finset.mem_range.2 hi⟩⟩

/-- Block sizes 4 and 1. -/
example : ∃ B, EllB.transposeNew ⟨some ebA.bsize, 2, 2⟩ (fun _ => 5) ebA =
    .ok (⟨some ebA.bsize, 2, 2⟩, B) ∧ B.Represents 5 (Spec.transpose ebAm) ∧ B.Clean := by
  obtain ⟨B, e, -, h1, h2, -⟩ := C64_transpose_new_partial ebA_spec.1 (by decide) (by decide)
    (by decide) (fun ib hib => lt_trans (ebA_bs ib hib).2 (by decide))
    (g := ⟨some ebA.bsize, 2, 2⟩) (by decide) (fun _ => 5) (colsFit_of_le (by decide)).1
  exact ⟨B, e, h2, h1⟩

/-- Transposing twice into new matrices gives the matrix back. -/
theorem C64_transpose_new_twice_partial {N : Nat} {A : EllB R} {a : Spec.Mat R}
    (hA : A.Represents N a) (hMB : 0 < A.MB) (hM : A.M ≤ N) (hNB : 0 < A.NB)
    (hbs : ∀ ib, ib < A.NB → A.bsize.get ib < 1000000) {g : EllB.Glob} (hg : g.mb ≠ 0)
    (junk : Nat → R) (hfit : A.ColsFit) :
    ∃ B C, EllB.transposeNew g junk A = .ok (g, B) ∧ EllB.transposeNew g junk B = .ok (g, C) ∧
      C.Represents N a := by
  obtain ⟨B, e, hs, -, h, hh⟩ := C64_transpose_new_partial hA hMB hM hNB hbs hg junk hfit
  obtain ⟨L, hr⟩ := EllB.represents_iff.1 hA
  have hrow : B.ColsFit := by
    intro jb hjb
    rw [hs.NB] at hjb
    refine ⟨((L jb).map Prod.fst).toFinset, ?_, ?_⟩
    · rw [List.toFinset_card_of_nodup (hr.good jb hjb).nodup, List.length_map, hs.MB]
      exact hr.is.le jb hjb
    · intro ib hib hb
      rw [hs.NB] at hib
      rw [List.mem_toFinset]
      exact (hr.has_iff hjb).1 ((hh jb ib hjb hib).1 hb)
  obtain ⟨C, e2, -, -, h2, -⟩ := C64_transpose_new_partial h (by rw [hs.MB]; exact hMB)
    (by rw [hs.M]; exact hM) (by rw [hs.NB]; exact hNB)
    (by rw [hs.NB, hs.bsize]; exact hbs) hg junk hrow
  exact ⟨B, C, e, e2, h2⟩

/-- **C64**, without the condition: two blocks in a block column, room for one in a block row; the
transposition writes behind the end of the array. -/
theorem C64_transpose_new_full : ∃ A, runB [(⟨0, 1, 1⟩ : BWrite Int), ⟨1, 1, 7⟩] ebT = .ok A ∧
    EllB.transposeNew ⟨some ⟨2, fun _ => 1⟩, 2, 1⟩ (fun _ => 0) A = .ub :=
  ⟨_, rfl, Res.eq_ub_of_isUb (by decide +kernel)⟩

/-- **C64**, `bml_transpose`, partial: it terminates, and the matrix then has the transposed elements
and the transposed block pattern, if for each number the block row and the block column of that number
together need no more room than a block row has. -/
theorem C64_transpose_partial {N : Nat} {A : EllB R} {a : Spec.Mat R} (hA : A.Represents N a)
    (hfit : A.SymColsFit) (junk : Nat → R) :
    ∃ B, EllB.transposeInPlace junk A = .ok B ∧ EllB.Same A B ∧ B.Represents N (Spec.transpose a) ∧
      ∀ ib jb, ib < A.NB → jb < A.NB → (B.Has jb ib ↔ A.Has ib jb) := by
  obtain ⟨L, h⟩ := EllB.represents_iff.1 hA
  obtain ⟨B, e, h1, ⟨LB, h2⟩, h3⟩ := h.transposeInPlace_spec hfit junk
  exact ⟨B, e, h1, EllB.represents_iff.2 ⟨LB, h2⟩, h3⟩

/-- Block sizes 4 and 1. -/
example : ∃ B, EllB.transposeInPlace (fun _ => 5) ebA = .ok B ∧
    B.Represents 5 (Spec.transpose ebAm) := by
  obtain ⟨B, e, -, h, -⟩ := C64_transpose_partial ebA_spec.1 (colsFit_of_le (by decide)).2 (fun _ => 5)
  exact ⟨B, e, h⟩

/-- Transposing twice in place restores the matrix. -/
theorem C64_transpose_twice_partial {N : Nat} {A : EllB R} {a : Spec.Mat R} (hA : A.Represents N a)
    (hfit : A.SymColsFit) (junk : Nat → R) :
    ∃ B C, EllB.transposeInPlace junk A = .ok B ∧ EllB.transposeInPlace junk B = .ok C ∧
      C.Represents N a := by
  obtain ⟨B, e, hs, h, hh⟩ := C64_transpose_partial hA hfit junk
  obtain ⟨C, e2, -, h2, -⟩ := C64_transpose_partial h (fun j hj => by
    rw [hs.NB] at hj
    obtain ⟨S, h1, h2⟩ := hfit j hj
    refine ⟨S, by rw [hs.MB]; exact h1, fun c hc hor => ?_⟩
    rw [hs.NB] at hc
    refine h2 c hc ?_
    rw [hh c j hc hj, hh j c hj hc] at hor
    exact hor.symm) junk
  exact ⟨B, C, e, e2, h2⟩

/-- A cyclic permutation matrix of three blocks of size 1, with room for one block per row. -/
def ebCyc : EllB Int :=
  match EllB.zeroMatrix (R := Int) ⟨some ⟨3, fun _ => 1⟩, 3, 1⟩ 3 3 with
  | .ok (_, A) => (match runB [(⟨0, 1, 1⟩ : BWrite Int), ⟨1, 2, 2⟩, ⟨2, 0, 3⟩] A with
    | .ok B => B
    | _ => A)
  | _ => EllB.empty 0 0 0 0 ⟨0, fun _ => 0⟩

/-- **C64**, without the condition: every block row and every block column of the matrix has one block
and there is room for one, so the transposed matrix fits, but `bml_transpose` writes outside the
arrays. -/
theorem C64_transpose_full : ebCyc.ColsFit ∧
    EllB.transposeInPlace (fun _ => 0) ebCyc = .ub := by
  refine ⟨?_, Res.eq_ub_of_isUb (by decide +kernel)⟩
  intro jb hjb
  refine ⟨{(jb + 2) % 3}, by rw [Finset.card_singleton]; decide, ?_⟩
  intro ib hib
  rintro ⟨jp, h1, h2⟩
  rw [Finset.mem_singleton]
  have hNB : ebCyc.NB = 3 := by decide +kernel
  rw [hNB] at hib hjb
  have hn : ∀ ib, ib < 3 → ebCyc.nnzb.get ib = 1 := by decide +kernel
  have hx : ∀ ib, ib < 3 → ebCyc.indexb.get (ib * ebCyc.MB + 0) = (ib + 1) % 3 := by decide +kernel
  rw [hn ib hib] at h1
  obtain rfl : jp = 0 := by omega
  rw [hx ib hib] at h2
  omega

/-- An 8 × 8 matrix with one element, in block (0,1). -/
def ebOne : EllB Int := mkB 8 [⟨0, 7, 1⟩]

/-- **C64**: after `bml_transpose`, the row that lost a block cannot get a new one: `bml_set_element`
ends in a failed assertion. -/
theorem C64_set_after_transpose : ∃ B, EllB.transposeInPlace (fun _ => 0) ebOne = .ok B ∧
    B.getElement 7 0 = .ok 1 ∧ B.setElement 0 0 5 = .error := by
  obtain ⟨B, e, h⟩ := Res.exists_okAnd (r := EllB.transposeInPlace (fun _ => 0) ebOne)
    (p := fun B => decide (B.getElement 7 0 = .ok 1) && (B.setElement 0 0 5).isError)
    (by decide +kernel)
  rw [Bool.and_eq_true] at h
  exact ⟨B, e, of_decide_eq_true h.1, Res.eq_error_of_isError h.2⟩

/-- **C64**: after `bml_transpose`, a sum can be wrong: the row that lost a block still has a pointer
to it, `bml_add` stores the block `(0,0)` of the sum there, and element `(7,0)` of the sum is 0 instead
of 1. -/
theorem C64_add_after_transpose : ∃ B C, EllB.transposeInPlace (fun _ => 0) ebOne = .ok B ∧
    EllB.add [(0, 0), (0, 1)] nzI nzI (fun _ => 0) B (mkB 8 [⟨0, 0, 5⟩]) 1 1 = .ok C ∧
    B.getElement 7 0 = .ok 1 ∧ (mkB 8 [⟨0, 0, 5⟩] : EllB Int).getElement 7 0 = .ok 0 ∧
    C.getElement 7 0 = .ok 0 := by
  obtain ⟨B, e, h⟩ := Res.exists_okAnd (r := EllB.transposeInPlace (fun _ => 0) ebOne)
    (p := fun B => decide (B.getElement 7 0 = .ok 1) &&
      Res.okAnd (fun C : EllB Int => decide (C.getElement 7 0 = .ok 0))
        (EllB.add [(0, 0), (0, 1)] nzI nzI (fun _ => 0) B (mkB 8 [⟨0, 0, 5⟩]) 1 1))
    (by decide +kernel)
  rw [Bool.and_eq_true] at h
  obtain ⟨C, e2, h2⟩ := Res.exists_okAnd h.2
  exact ⟨B, C, e, e2, of_decide_eq_true h.1, by decide +kernel, of_decide_eq_true h2⟩

end Bml.Props
