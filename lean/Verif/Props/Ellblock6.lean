import Verif.Props.Ellblock3
import Verif.Ellblock.Ops23
import Mathlib.Algebra.Order.BigOperators.Group.Finset
import Mathlib.Tactic.Ring
import Mathlib.Tactic.Linarith

/-!
# Property theorems: norms of two block-ELLPACK matrices (C65)

`EllB.blockSum bs NB above f`: the sum over all blocks of the sum of `f` over the elements of the
block, where a block whose sum is not above the threshold counts as zero.
-/

namespace Bml.Props

open Bml

variable {R K : Type} [CommRing R]

/-! ## C65 -/

/-- A sum over all elements, block by block. -/
theorem total_blocks [AddCommMonoid K] (bs : Nat → Nat) (NB : Nat) (f : Nat → Nat → K) :
    ∑ i ∈ Finset.range (EllB.off bs NB), ∑ j ∈ Finset.range (EllB.off bs NB), f i j =
      ∑ ib ∈ Finset.range NB, ∑ jb ∈ Finset.range NB, ∑ ii ∈ Finset.range (bs ib),
        ∑ jj ∈ Finset.range (bs jb), f (EllB.off bs ib + ii) (EllB.off bs jb + jj) := by
  rw [EllB.sum_off]
  refine Finset.sum_congr rfl fun ib _ => ?_
  rw [Finset.sum_congr rfl fun ii _ => EllB.sum_off bs _ NB, Finset.sum_comm]

section
variable [CommRing K] [LinearOrder K] [IsStrictOrderedRing K]

/-- What a threshold by blocks can lose. -/
theorem C65_blockSum_bounds (bs : Nat → Nat) (NB : Nat) (f : Nat → Nat → K)
    (h0 : ∀ i j, 0 ≤ f i j) (t : K) :
    let r := EllB.blockSum bs NB (fun x => decide (t * t < x)) f
    let s := ∑ i ∈ Finset.range (EllB.off bs NB), ∑ j ∈ Finset.range (EllB.off bs NB), f i j
    r ≤ s ∧ s ≤ r + NB * NB * (t * t) := by
  intro r s
  have hs : s = _ := total_blocks bs NB f
  have hx : ∀ x : K, 0 ≤ x → EllB.cut (fun x => decide (t * t < x)) x ≤ x ∧
      x ≤ EllB.cut (fun x => decide (t * t < x)) x + t * t := by
    intro x hx
    have ht := mul_self_nonneg t
    unfold EllB.cut
    by_cases h : t * t < x
    · simp only [h, decide_true, if_true]
      exact ⟨le_refl _, by linarith⟩
    · simp only [h, decide_false, Bool.false_eq_true, if_false]
      exact ⟨hx, by linarith [not_lt.1 h]⟩
  have hnn : ∀ ib jb, 0 ≤ ∑ ii ∈ Finset.range (bs ib), ∑ jj ∈ Finset.range (bs jb),
      f (EllB.off bs ib + ii) (EllB.off bs jb + jj) := fun ib jb =>
    Finset.sum_nonneg fun ii _ => Finset.sum_nonneg fun jj _ => h0 _ _
  rw [hs]
  constructor
  · exact Finset.sum_le_sum fun ib _ => Finset.sum_le_sum fun jb _ => (hx _ (hnn ib jb)).1
  · have : (NB : K) * NB * (t * t) =
        ∑ ib ∈ Finset.range NB, ∑ jb ∈ Finset.range NB, (t * t) := by
      simp only [Finset.sum_const, Finset.card_range, nsmul_eq_mul]; ring
    rw [this, show r = ∑ ib ∈ Finset.range NB, ∑ jb ∈ Finset.range NB, _ from rfl,
      ← Finset.sum_add_distrib]
    refine Finset.sum_le_sum fun ib _ => ?_
    rw [← Finset.sum_add_distrib]
    exact Finset.sum_le_sum fun jb _ => (hx _ (hnn ib jb)).2

/-- **C65**, `bml_sum_squares2`: the sum of the squares of the elements of `α A + β B`, up to the
blocks whose sum of squares is not above the square of the threshold; exact for the threshold zero.
`sq x` is `|x| * |x|`. -/
theorem C65_sum_squares2 {N : Nat} {A B : EllB R} {a b : Spec.Mat R} (hA : A.Represents N a)
    (hB : B.Represents N b) (hMB : A.MB = B.MB) (hNB : A.NB = B.NB)
    (hbs : ∀ k, k < A.NB → A.bsize.get k = B.bsize.get k) (sq : R → K) (hz : sq 0 = 0)
    (hsq : ∀ x, 0 ≤ sq x) (t : K) (α β : R) :
    ∃ r, EllB.sumSquares2 sq (fun x => decide (t * t < x)) α β A B = .ok r ∧
      r = EllB.blockSum A.bsize.get A.NB (fun x => decide (t * t < x))
        (fun i j => sq (α * a i j + β * b i j)) ∧
      r ≤ Spec.total N N (fun i j => sq (α * a i j + β * b i j)) ∧
      Spec.total N N (fun i j => sq (α * a i j + β * b i j)) ≤ r + A.NB * A.NB * (t * t) ∧
      (t = 0 → r = Spec.total N N (fun i j => sq (α * a i j + β * b i j))) := by
  obtain ⟨L, h⟩ := EllB.represents_iff.1 hA
  obtain ⟨L', h'⟩ := EllB.represents_iff.1 hB
  refine ⟨_, h.sumSquares2_eq h' hMB hNB hbs sq hz _ α β, rfl, ?_⟩
  have := C65_blockSum_bounds A.bsize.get A.NB (fun i j => sq (α * a i j + β * b i j))
    (fun i j => hsq _) t
  rw [h.N_eq] at this
  refine ⟨this.1, this.2, ?_⟩
  rintro rfl
  refine le_antisymm this.1 ?_
  have h2 := this.2
  rwa [show (A.NB : K) * A.NB * (0 * 0) = 0 by ring, add_zero] at h2

/-- Blocks of sizes 4 and 1: `ebA - 2 C`. -/
example : EllB.sumSquares2 (fun x : Int => x * x) (fun x => decide ((0 : Int) * 0 < x)) 1 (-2) ebA
    (mkB 5 ebCw) = .ok 15 := by
  obtain ⟨r, e, -, -, -, h⟩ := C65_sum_squares2 ebA_spec.1 ebC_spec.1 (by decide +kernel)
    (by decide +kernel) (fun _ _ => rfl) (fun x : Int => x * x) rfl mul_self_nonneg 0 1 (-2)
  rw [e, h rfl]
  decide

/-- **C65**, `bml_sum_AB`, partial: the sum of the absolute values of the elements of `α A ∘ B`, up to
the blocks whose sum is not above the square of the threshold.  Missing: this is not the sum of the
elements that the other formats compute (`C65_sum_AB_sign`), and it needs room for all blocks
in a block row (`C65_sum_AB_narrow`). -/
theorem C65_sum_AB_partial {N : Nat} {A B : EllB R} {a b : Spec.Mat R} (hA : A.Represents N a)
    (hB : B.Represents N b) (hMB : A.MB = B.MB) (hNB : A.NB = B.NB) (hfull : A.NB ≤ A.MB)
    (hbs : ∀ k, k < A.NB → A.bsize.get k = B.bsize.get k) (absv : R → K) (hz : absv 0 = 0)
    (habs : ∀ x, 0 ≤ absv x) (t : K) (α : R) :
    ∃ r, EllB.sumAB absv (fun x => decide (t * t < x)) α A B = .ok r ∧
      r = EllB.blockSum A.bsize.get A.NB (fun x => decide (t * t < x))
        (fun i j => absv (α * a i j * b i j)) ∧
      r ≤ Spec.total N N (fun i j => absv (α * a i j * b i j)) ∧
      Spec.total N N (fun i j => absv (α * a i j * b i j)) ≤ r + A.NB * A.NB * (t * t) ∧
      (t = 0 → r = Spec.total N N (fun i j => absv (α * a i j * b i j))) := by
  obtain ⟨L, h⟩ := EllB.represents_iff.1 hA
  obtain ⟨L', h'⟩ := EllB.represents_iff.1 hB
  refine ⟨_, h.sumAB_eq h' hMB hNB hfull hbs absv hz _ α, rfl, ?_⟩
  have := C65_blockSum_bounds A.bsize.get A.NB (fun i j => absv (α * a i j * b i j))
    (fun i j => habs _) t
  rw [h.N_eq] at this
  refine ⟨this.1, this.2, ?_⟩
  rintro rfl
  refine le_antisymm this.1 ?_
  have h2 := this.2
  rwa [show (A.NB : K) * A.NB * (0 * 0) = 0 by ring, add_zero] at h2

example : EllB.sumAB (fun x : Int => |x|) (fun x => decide ((0 : Int) * 0 < x)) 3 ebA
    (mkB 5 ebCw) = .ok 36 := by
  obtain ⟨r, e, -, -, -, h⟩ := C65_sum_AB_partial ebA_spec.1 ebC_spec.1 (by decide +kernel)
    (by decide +kernel) (by decide +kernel) (fun _ _ => rfl) (fun x : Int => |x|) rfl abs_nonneg 0 3
  rw [e, h rfl]
  decide

end

/-- `bml_sum_AB` of the 1 × 1 matrices `(-2)` and `(3)` is `6`, not `-6`. -/
theorem C65_sum_AB_sign :
    EllB.sumAB (fun x : Int => |x|) (fun x => decide ((0 : Int) * 0 < x)) 1 (mkB 1 [⟨0, 0, -2⟩])
      (mkB 1 [⟨0, 0, 3⟩]) = .ok 6 ∧
    Spec.total 1 1 (fun i j => 1 * mkBm [⟨0, 0, -2⟩] i j * mkBm [⟨0, 0, (3 : Int)⟩] i j) = -6 :=
  ⟨by rfl, by decide⟩

/-- If a block row has not room for all blocks, `bml_sum_AB` clears more of an array than there is. -/
theorem C65_sum_AB_narrow [AddCommMonoid K] {A : EllB R} (hA : A.bsize.size = A.NB)
    (hn : A.MB < A.NB) (B : EllB R) (absv : R → K) (above : K → Bool) (α : R) :
    EllB.sumAB absv above α A B = .ub := by
  obtain ⟨m, hm, -⟩ := EllB.maxBsize_spec hA
  unfold EllB.sumAB
  rw [hm, Res.bind_ok, if_pos hn]

example : EllB.sumAB (fun x : Int => |x|) (fun x => decide (0 < x)) 1 ebT ebT = .ub :=
  C65_sum_AB_narrow rfl (by decide) ebT _ _ 1

/-- **C65**, `bml_fnorm2` (the number under the root), partial: the sum of the squares of the elements
of `A - B`, if the same block rows are empty in both matrices, and either `A` has all the blocks of
`B`, or all blocks have one size and no block row of `B` has more blocks than that of `A`.  Missing:
`C65_fnorm2_unset`, `C65_fnorm2_stale`, `C65_fnorm2_sizes`, `C65_fnorm2_more`. -/
theorem C65_fnorm2_partial {N : Nat} {A B : EllB R} {a b : Spec.Mat R} (hA : A.Represents N a)
    (hB : B.Represents N b) (hMB : A.MB = B.MB) (hNB : A.NB = B.NB)
    (hbs : ∀ k, k < A.NB → A.bsize.get k = B.bsize.get k)
    (hrow : ∀ ib, ib < A.NB → ((∃ jb, A.Has ib jb) ↔ ∃ jb, B.Has ib jb))
    (hblk : (∀ ib jb, ib < A.NB → B.Has ib jb → A.Has ib jb) ∨
      ((∃ s, ∀ ib, ib < A.NB → A.bsize.get ib = s) ∧
        ∀ ib, ib < A.NB → B.nnzb.get ib ≤ A.nnzb.get ib)) :
    EllB.fnorm2Sq A B =
      .ok (Spec.total N N fun i j => (a i j - b i j) * (a i j - b i j)) := by
  obtain ⟨L, h⟩ := EllB.represents_iff.1 hA
  obtain ⟨L', h'⟩ := EllB.represents_iff.1 hB
  have hemp : ∀ (l : EllB.BRow R), l = [] ↔ ¬ ∃ jb, jb ∈ l.map Prod.fst := by
    intro l
    cases l with
    | nil => simp
    | cons p l => simp only [List.cons_ne_nil, false_iff, not_not]; exact ⟨p.1, by simp⟩
  refine h.fnorm2Sq_eq h' hMB hNB hbs ?_ ?_
  · intro ib hib
    have := hrow ib hib
    simp only [h.has_iff hib, h'.has_iff (by omega : ib < B.NB)] at this
    rw [hemp, hemp, this]
  · intro ib jp jb x hib hx hn
    have hm : jb ∈ (L' ib).map Prod.fst := List.mem_map.2 ⟨_, List.mem_of_getElem? hx, rfl⟩
    rcases hblk with hsub | ⟨⟨s, hs⟩, hix⟩
    · exact absurd ((h.has_iff hib).1 (hsub ib jb hib ((h'.has_iff (by omega)).2 hm))) hn
    · have hlt := (List.getElem?_eq_some_iff.1 hx).1
      have hle := hix ib hib
      rw [h.is.nz ib hib, h'.is.nz ib (by omega)] at hle
      obtain ⟨⟨c, y⟩, hy⟩ : ∃ y, (L ib)[jp]? = some y := ⟨_, List.getElem?_eq_getElem (by omega)⟩
      have h1 : A.indexb.get (ib * A.MB + jp) < A.NB := by
        rw [(h.is.slot ib jp c y hib hy).1]
        exact (h.good ib hib).lt _ (List.mem_of_getElem? hy)
      have h2 : jb < A.NB := by
        have := (h'.good ib (by omega)).lt _ (List.mem_of_getElem? hx)
        simp only at this
        omega
      exact ⟨h1, by rw [hs _ h1, hs _ h2]⟩

/-- 4 × 4 blocks; each matrix has a block the other one does not have. -/
example : EllB.fnorm2Sq ebU ebV = .ok 44 := by
  refine (C65_fnorm2_partial ebU_spec.1 ebV_spec.1 rfl rfl (fun _ _ => rfl) ?_
    (Or.inr ⟨⟨4, ebU_bs⟩, by decide +kernel⟩)).trans (by decide)
  intro ib hib
  have h2 : ib < 2 := hib
  interval_cases ib
  · exact iff_of_true ⟨0, 0, by decide +kernel, by decide +kernel⟩
      ⟨1, 0, by decide +kernel, by decide +kernel⟩
  · exact iff_of_true ⟨1, 0, by decide +kernel, by decide +kernel⟩
      ⟨0, 0, by decide +kernel, by decide +kernel⟩

/-- Where `B` has no blocks, `bml_fnorm2` reads through a pointer that was never set. -/
theorem C65_fnorm2_unset : EllB.fnorm2Sq (mkB 1 [(⟨0, 0, 2⟩ : BWrite Int)]) (mkB 1 []) = .ub :=
  Res.eq_ub_of_isUb (by decide +kernel)

/-- Where a block row of `B` is empty, `bml_fnorm2` may subtract a block of another row: the result is
`16` instead of `25`. -/
theorem C65_fnorm2_stale :
    EllB.fnorm2Sq (mkB 8 [(⟨0, 0, 1⟩ : BWrite Int), ⟨4, 4, 5⟩]) (mkB 8 [⟨0, 0, 1⟩]) = .ok 16 ∧
    Spec.total 8 8 (fun i j => (mkBm [(⟨0, 0, 1⟩ : BWrite Int), ⟨4, 4, 5⟩] i j - mkBm [⟨0, 0, 1⟩] i j) *
      (mkBm [(⟨0, 0, 1⟩ : BWrite Int), ⟨4, 4, 5⟩] i j - mkBm [⟨0, 0, 1⟩] i j)) = 25 := by
  refine ⟨?_, by decide +kernel⟩
  have := Res.exists_okAnd (r := EllB.fnorm2Sq (mkB 8 [(⟨0, 0, 1⟩ : BWrite Int), ⟨4, 4, 5⟩])
    (mkB 8 [⟨0, 0, 1⟩])) (p := fun x => decide (x = 16)) (by decide +kernel)
  obtain ⟨x, e, h⟩ := this
  rw [e, of_decide_eq_true h]

/-- Blocks of sizes 4 and 1: `bml_fnorm2` takes the size of a block of `B` from the block of `A` at the
same position: the result is `1` instead of `5`, and the program reads past a block if the matrices
are exchanged. -/
theorem C65_fnorm2_sizes :
    EllB.fnorm2Sq (mkB 5 [(⟨0, 4, 1⟩ : BWrite Int)]) (mkB 5 [⟨3, 3, 2⟩]) = .ok 1 ∧
    Spec.total 5 5 (fun i j => (mkBm [(⟨0, 4, 1⟩ : BWrite Int)] i j - mkBm [⟨3, 3, 2⟩] i j) *
      (mkBm [(⟨0, 4, 1⟩ : BWrite Int)] i j - mkBm [⟨3, 3, 2⟩] i j)) = 5 ∧
    EllB.fnorm2Sq (mkB 5 [(⟨3, 3, 2⟩ : BWrite Int)]) (mkB 5 [⟨0, 4, 1⟩]) = .ub := by
  refine ⟨?_, by decide +kernel, Res.eq_ub_of_isUb (by decide +kernel)⟩
  obtain ⟨x, e, h⟩ := Res.exists_okAnd (r := EllB.fnorm2Sq (mkB 5 [(⟨0, 4, 1⟩ : BWrite Int)])
    (mkB 5 [⟨3, 3, 2⟩])) (p := fun x => decide (x = 1)) (by decide +kernel)
  rw [e, of_decide_eq_true h]

/-- Where a block row of `B` has more blocks than that of `A`, `bml_fnorm2` takes the size of a block
from an unused cell of `A`, which holds `-1`. -/
theorem C65_fnorm2_more :
    EllB.fnorm2Sq (mkB 8 [(⟨0, 0, 1⟩ : BWrite Int)]) (mkB 8 [⟨0, 0, 1⟩, ⟨0, 7, 1⟩]) = .ub :=
  Res.eq_ub_of_isUb (by decide +kernel)

/-- `bml_add_norm` of the 1 × 1 matrices `(2)` and `(0)`: the sum is right, the squared norm of the
difference is returned as `16` instead of `4`. -/
theorem C65_add_norm_value : ∃ A', EllB.addNorm (fun x : Int => x * x) nzI (mkB 1 [⟨0, 0, 2⟩])
      (mkB 1 []) 3 1 = .ok (A', 16) ∧ A'.getElement 0 0 = .ok 6 := by
  obtain ⟨⟨A', n⟩, e, h⟩ := Res.exists_okAnd (r := EllB.addNorm (fun x : Int => x * x) nzI
    (mkB 1 [⟨0, 0, 2⟩]) (mkB 1 []) 3 1) (p := fun x => decide (x.2 = 16) &&
      Res.okAnd (fun y : Int => decide (y = 6)) (x.1.getElement 0 0)) (by decide +kernel)
  rw [Bool.and_eq_true] at h
  obtain ⟨y, e2, h2⟩ := Res.exists_okAnd h.2
  have h1 : n = 16 := of_decide_eq_true h.1
  subst h1
  exact ⟨A', e, by rw [e2, of_decide_eq_true h2]⟩

/-- `bml_add_norm` allocates no blocks: a block that only `B` has is written through NULL; and its work
space is too small for blocks of more than 25 elements. -/
theorem C65_add_norm_unsafe :
    EllB.addNorm (fun x : Int => x * x) nzI (mkB 1 []) (mkB 1 [⟨0, 0, 2⟩]) 1 1 = .ub ∧
    ∃ g A A', EllB.zeroMatrix (R := Int) ⟨some ⟨1, fun _ => 6⟩, 1, 1⟩ 6 6 = .ok (g, A) ∧
      A.setElement 0 0 1 = .ok A' ∧ EllB.addNorm (fun x : Int => x * x) nzI A' A' 1 1 = .ub :=
  ⟨Res.eq_ub_of_isUb (by decide +kernel), _, _, _, rfl, rfl, Res.eq_ub_of_isUb (by decide +kernel)⟩

end Bml.Props
