import Verif.Props.Ellblock
import Verif.Props.EllNormalize
import Verif.Ellblock.Ops8
import Verif.Ellblock.Ops9

/-!
# Property theorems: traces, sums, norms and circles and thresholds of block-ELLPACK
matrices (C59, C60, C61)
-/

namespace Bml.Props

open Bml

variable {R : Type}

/-! ## C59 -/

section
variable [CommRing R]

/-- **C59**, `bml_trace`. -/
theorem C59_trace {N : Nat} {A : EllB R} {a : Spec.Mat R} (hA : A.Represents N a) :
    A.trace = .ok (Spec.tr N a) := by
  obtain ⟨L, h⟩ := EllB.represents_iff.1 hA
  exact h.trace_eq

example : ebA.trace = .ok 2 := (C59_trace ebA_spec.1).trans (by decide)

/-- **C59**, `bml_trace_mult`: the trace of the product, for two matrices with the same blocks. -/
theorem C59_trace_mult {N : Nat} {A B : EllB R} {a b : Spec.Mat R} (hA : A.Represents N a)
    (hB : B.Represents N b) (hMB : A.MB = B.MB) (hNB : A.NB = B.NB)
    (hbs : ∀ k, k < A.NB → A.bsize.get k = B.bsize.get k) :
    EllB.traceMult A B = .ok (Spec.tr N (Spec.mul N a b)) := by
  obtain ⟨L, h⟩ := EllB.represents_iff.1 hA
  obtain ⟨L', h'⟩ := EllB.represents_iff.1 hB
  exact h.traceMult_eq h' hMB hNB hbs

example : EllB.traceMult ebA ebA = .ok (-6) :=
  (C59_trace_mult ebA_spec.1 ebA_spec.1 rfl rfl (fun _ _ => rfl)).trans (by decide)

/-- **C59**: matrices with different numbers of blocks are an error. -/
theorem C59_trace_mult_blocks {A B : EllB R} (h : A.NB ≠ B.NB ∨ A.MB ≠ B.MB) :
    EllB.traceMult A B = .error := if_pos h

example : EllB.traceMult ebA (newB Int 9 9) = .error := C59_trace_mult_blocks (by decide)

/-- **C59**, `bml_sum_squares` (the number under the root of `bml_fnorm`). -/
theorem C59_sum_squares {N : Nat} {A : EllB R} {a : Spec.Mat R} (hA : A.Represents N a) :
    A.sumSquares = .ok (∑ i ∈ Finset.range N, ∑ j ∈ Finset.range N, a i j * a i j) := by
  obtain ⟨L, h⟩ := EllB.represents_iff.1 hA
  exact h.sumSquares_eq

example : ebA.sumSquares = .ok 39 := (C59_sum_squares ebA_spec.1).trans (by decide)

/-- **C59**, the counter in `bml_get_sparsity`: the number of elements above the threshold. -/
theorem C59_sparsity_count {N : Nat} {A : EllB R} {a : Spec.Mat R} (hA : A.Represents N a)
    (big : R → Bool) (h0 : big 0 = false) :
    A.sparsityCount big =
      .ok ((Finset.range N ×ˢ Finset.range N).filter fun p => big (a p.1 p.2) = true).card := by
  obtain ⟨L, h⟩ := EllB.represents_iff.1 hA
  rw [h.sparsityCount_eq big h0, Finset.card_filter, Finset.sum_product]

/-- **C59**, `bml_get_sparsity`, partial.  Missing: larger matrices (`C59_sparsity_overflow`). -/
theorem C59_sparsity_partial {N : Nat} {A : EllB R} {a : Spec.Mat R} (hA : A.Represents N a)
    (hN : N ≤ 46340) (big : R → Bool) (h0 : big 0 = false) :
    (A.sparsity big : Res ℚ) = .ok (1 -
      (((Finset.range N ×ˢ Finset.range N).filter fun p => big (a p.1 p.2) = true).card : ℚ) /
        ((N : ℚ) * N)) := by
  unfold EllB.sparsity
  rw [C59_sparsity_count hA big h0, Res.bind_ok, hA.dim, sparsityOf_ok hN]
  push_cast
  rfl

/-- **C59 fails** for every block-ELLPACK matrix with more than 46340 rows: `A->N * A->N` overflows. -/
theorem C59_sparsity_overflow {N : Nat} {A : EllB R} {a : Spec.Mat R} (hA : A.Represents N a)
    (hN : 46341 ≤ N) (big : R → Bool) (h0 : big 0 = false) : (A.sparsity big : Res ℚ) = .ub := by
  unfold EllB.sparsity
  rw [C59_sparsity_count hA big h0, Res.bind_ok, hA.dim, sparsityOf_ub hN]

example : ebA.sparsityCount (fun x => decide (x ≠ 0)) = .ok 4 :=
  (C59_sparsity_count ebA_spec.1 _ rfl).trans (by decide +kernel)

end

/-! ## C60 -/

section
variable [CommRing R] {K : Type} [Field K] [LinearOrder K] [IsStrictOrderedRing K]

/-- **C60**, `bml_accumulate_offdiag`: the radii (plus the diagonal on demand). -/
theorem C60_accumulate_offdiag {N : Nat} {A : EllB R} {a : Spec.Mat R} (hA : A.Represents N a)
    (abv : AbsoluteValue R K) (incl : Bool) :
    ∃ out, A.accumulateOffdiag abv incl = .ok out ∧ out.size = N ∧ ∀ i, i < N →
      out.get i = Spec.radius abv N a i + if incl then abv (a i i) else 0 := by
  obtain ⟨L, h⟩ := EllB.represents_iff.1 hA
  exact Res.wp_exists (h.wp_accumulateOffdiag (E := False) abv (map_zero abv) incl)

/-- **C60**, what `bml_gershgorin` computes: the smallest of `top = DBL_MAX` and the left ends,
the largest of `bot = DBL_MIN` and the right ends of the row circles. -/
theorem C60_gershgorin_value {N : Nat} {A : EllB R} {a : Spec.Mat R} (hA : A.Represents N a)
    (abv : AbsoluteValue R K) (re : R → K) (top bot : K) :
    ∃ e, A.gershgorin abv re top bot = .ok e ∧
      Ell.IsMinOf top 0 N (fun i => re (a i i) - Spec.radius abv N a i) e.1 ∧
      Ell.IsMaxOf bot 0 N (fun i => re (a i i) + Spec.radius abv N a i) e.2 := by
  obtain ⟨L, h⟩ := EllB.represents_iff.1 hA
  exact Res.wp_exists (h.wp_gershgorin (E := False) abv re (map_zero abv) top bot)

/-- **C60.**  The real part of every eigenvalue lies between the two numbers that
`bml_gershgorin` returns.  `re` is the real part: additive and bounded by the absolute value. -/
theorem C60_gershgorin {N : Nat} {A : EllB R} {a : Spec.Mat R} (hA : A.Represents N a)
    (abv : AbsoluteValue R K) (re : R →+ K) (hre : ∀ x, |re x| ≤ abv x) (top bot : K) :
    ∃ e, A.gershgorin abv re top bot = .ok e ∧
      ∀ l, Spec.Eigen N a l → e.1 ≤ re l ∧ re l ≤ e.2 := by
  obtain ⟨e, h, h1, h2⟩ := C60_gershgorin_value hA abv re top bot
  refine ⟨e, h, fun l hl => ?_⟩
  obtain ⟨i, hi, hc⟩ := hl.circle abv
  have hr := le_trans (hre (l - a i i)) hc
  rw [map_sub, abs_le] at hr
  have g1 := h1.2.1 i (Nat.zero_le i) hi
  have g2 := h2.2.1 i (Nat.zero_le i) hi
  constructor <;> linarith [hr.1, hr.2]

end

/-- The matrix with room for all blocks that a sequence of writes builds at program start. -/
def mkB [CommRing R] (N : Nat) (ws : List (BWrite R)) : EllB R :=
  match runB ws (newB R N N) with
  | .ok A => A
  | _ => newB R N N

/-- Its elements. -/
def mkBm [CommRing R] (ws : List (BWrite R)) : Spec.Mat R :=
  ws.foldl (fun a w => Spec.set a w.i w.j w.v) (fun _ _ => 0)

theorem mkB_spec [CommRing R] {N : Nat} (h0 : 0 < N) (ws : List (BWrite R))
    (hMB : (newB R N N).NB ≤ (newB R N N).MB) (hw : ∀ w ∈ ws, w.i < N ∧ w.j < N) :
    (mkB N ws).Represents N (mkBm ws) ∧ (mkB N ws).Clean ∧ (mkB N ws).M = N := by
  obtain ⟨h1, h2, h3, -⟩ := newB_spec (R := R) (N := N) (M := N) le_rfl h0
  obtain ⟨A', e, c1, c2, c3⟩ := C38_history_full h1 h2 hMB ws hw
  unfold mkB
  rw [e]
  exact ⟨c3, c1, c2.trans h3⟩

/-- A rational matrix with two different block sizes. -/
def ebQw : List (BWrite Rat) := [⟨0, 4, 1⟩, ⟨0, 0, 2⟩, ⟨4, 4, 2⟩, ⟨4, 0, 1⟩]

theorem ebQ_spec : (mkB 5 ebQw).Represents 5 (mkBm ebQw) ∧ (mkB 5 ebQw).Clean ∧
    (mkB 5 ebQw).M = 5 := mkB_spec (N := 5) (by decide) ebQw (by decide) (by decide)

theorem ebQ_eigen : Spec.Eigen 5 (mkBm ebQw) 3 := by
  refine ⟨fun i => if i = 0 ∨ i = 4 then 1 else 0, ⟨0, by decide, by decide⟩, ?_⟩
  decide +kernel

/-- The eigenvalue 3 (eigenvector `(1,0,0,0,1)`) is between the bounds. -/
example : ∃ e, (mkB 5 ebQw).gershgorin AbsoluteValue.abs (AddMonoidHom.id Rat) 1000 (1 / 1000) =
    .ok e ∧ e.1 ≤ (3 : Rat) ∧ (3 : Rat) ≤ e.2 := by
  obtain ⟨e, h, h1⟩ := C60_gershgorin ebQ_spec.1 AbsoluteValue.abs (AddMonoidHom.id Rat)
    (fun _ => le_refl _) 1000 (1 / 1000)
  exact ⟨e, h, h1 3 ebQ_eigen⟩

/-- The radius of row 0 is 1, of row 1 it is 0. -/
example : ∃ out, (mkB 5 ebQw).accumulateOffdiag (AbsoluteValue.abs : AbsoluteValue Rat Rat) false =
    .ok out ∧ out.get 0 = 1 ∧ out.get 1 = 0 := by
  obtain ⟨out, e, -, h⟩ := C60_accumulate_offdiag ebQ_spec.1
    (AbsoluteValue.abs : AbsoluteValue Rat Rat) false
  exact ⟨out, e, (h 0 (by decide)).trans (by decide +kernel),
    (h 1 (by decide)).trans (by decide +kernel)⟩

/-! ## C61 -/

section
variable [CommRing R]

/-- **C61**, `bml_threshold`: the elements that are not above the threshold become zero, the others
stay; a block without an element above the threshold is not stored any more. -/
theorem C61_threshold {N : Nat} {A : EllB R} {a : Spec.Mat R} (hA : A.Represents N a)
    (big : R → Bool) :
    ∃ A', A.threshold big = .ok A' ∧ A'.M = A.M ∧ A'.MB = A.MB ∧ (A.Clean → A'.Clean) ∧
      A'.Represents N (fun i j => Spec.keep big (a i j)) ∧
      ∀ ib jb, ib < A.NB → A'.Has ib jb → ∃ ii jj, ii < A.bsize.get ib ∧ jj < A.bsize.get jb ∧
        big (a (EllB.off A.bsize.get ib + ii) (EllB.off A.bsize.get jb + jj)) = true := by
  obtain ⟨L, h⟩ := EllB.represents_iff.1 hA
  obtain ⟨A', e, ⟨L', h1, hL⟩, h2, h3, -⟩ := Res.wp_exists (h.wp_threshold (E := False) big)
  refine ⟨A', e, h2.M, h2.MB, h3, EllB.represents_iff.2 ⟨L', h1⟩, fun ib jb hib hh => ?_⟩
  rw [h1.has_iff (by rw [h2.NB]; exact hib), hL ib hib] at hh
  obtain ⟨q, hq, rfl⟩ := List.mem_map.1 hh
  obtain ⟨b, hb, hot, -⟩ := EllB.thrRow_mem hq
  have hjb := (h.good ib hib).lt (q.1, b) hb
  obtain ⟨ii, jj, hi, hj, hx⟩ := (EllB.exists_flat _).1 (of_decide_eq_true hot)
  refine ⟨ii, jj, hi, hj, ?_⟩
  rw [← h.den ib q.1 ii jj hib hjb hi hj, EllB.val_of_mem (h.good ib hib).nodup hb]
  exact hx

/-- The threshold 2: of the elements 5, 2, 3, -1 the elements 5 and 3 stay, and row 4 loses both its
blocks.  Setting an element of that row again works. -/
example : ∃ A' A'', ebA.threshold (fun x => decide (2 < x)) = .ok A' ∧ A'.getElement 0 4 = .ok 5 ∧
    A'.getElement 4 4 = .ok 0 ∧ ¬ A'.Has 1 0 ∧
    runB [(⟨4, 3, 9⟩ : BWrite Int)] A' = .ok A'' ∧ A''.getElement 4 3 = .ok 9 ∧
    A''.getElement 1 2 = .ok 3 := by
  obtain ⟨A', e, -, hM, hc, hr, hh⟩ := C61_threshold ebA_spec.1 (fun x => decide (2 < x))
  have hnb : A'.NB = 2 := by
    have : (ebA.threshold (fun x => decide (2 < x))).bind (fun A => .ok A.NB) = .ok 2 := by
      decide +kernel
    rw [e] at this
    exact Res.ok.inj this
  obtain ⟨A'', e', -, -, hr'⟩ := C38_history_full hr (hc ebA_spec.2.1)
    (by rw [hnb, hM]; decide) [(⟨4, 3, 9⟩ : BWrite Int)] (by decide)
  refine ⟨A', A'', e, hr.get 0 4 (by decide) (by decide), hr.get 4 4 (by decide) (by decide), ?_, e',
    hr'.get 4 3 (by decide) (by decide), hr'.get 1 2 (by decide) (by decide)⟩
  intro hx
  obtain ⟨ii, jj, h1, h2, h3⟩ := hh 1 0 (by decide) hx
  have e1 : ii = 0 := by
    have : ii < 1 := h1
    omega
  have e2 : jj < 4 := h2
  subst e1
  have : ∀ jj, jj < 4 → ¬ decide (2 < ebAm (EllB.off ebA.bsize.get 1 + 0)
    (EllB.off ebA.bsize.get 0 + jj)) = true := by decide
  exact this jj e2 h3

/-- **C61**, `bml_threshold_new`: a new matrix with the elements above the threshold. -/
theorem C61_threshold_new {N : Nat} {A : EllB R} {a : Spec.Mat R} (hA : A.Represents N a)
    (hMB : 0 < A.MB) (hM : A.M ≤ N) (hNB : 0 < A.NB)
    (hbs : ∀ ib, ib < A.NB → A.bsize.get ib < 1000000) {g : EllB.Glob} (hg : g.mb ≠ 0)
    (big : R → Bool) :
    ∃ B, EllB.thresholdNew g big A = .ok (g, B) ∧ B.M = A.M ∧ B.Clean ∧
      B.Represents N (fun i j => Spec.keep big (a i j)) := by
  obtain ⟨L, h⟩ := EllB.represents_iff.1 hA
  obtain ⟨⟨g', B⟩, e, rfl, L', h1, h2, h3⟩ :=
    Res.wp_exists (h.wp_thresholdNew (E := False) hMB hM hNB hbs hg big)
  exact ⟨B, e, h3.M, h2, EllB.represents_iff.2 ⟨L', h1⟩⟩

example : ∃ B, EllB.thresholdNew ⟨some ebA.bsize, 2, 2⟩ (fun x => decide (2 < x)) ebA =
    .ok (⟨some ebA.bsize, 2, 2⟩, B) ∧ B.getElement 0 4 = .ok 5 ∧ B.getElement 4 0 = .ok 0 := by
  obtain ⟨B, e, -, -, h⟩ := C61_threshold_new ebA_spec.1 (by decide) (by decide) (by decide)
    (fun ib hib => lt_trans (ebA_bs ib hib).2 (by decide)) (g := ⟨some ebA.bsize, 2, 2⟩) (by decide)
    (fun x => decide (2 < x))
  exact ⟨B, e, h.get 0 4 (by decide) (by decide), h.get 4 0 (by decide) (by decide)⟩

end

end Bml.Props
