import Verif.Props.Csr
import Mathlib.Tactic.IntervalCases

/-!
# Property theorems: the CSR format (2), arithmetic, transposes, reductions, spectra, submatrices
-/

namespace Bml.Props

open Bml

variable {R : Type} [CommRing R]

/-! ## C08, C09, C10, C11 -/

/-- Number of columns of row `i` stored in `A` or in `B`. -/
def unionFill (A B : Csr R) (N i : Nat) : Nat :=
  ((Finset.range N).filter (fun j => A.Stored i j ∨ B.Stored i j)).card

/-- Row `i` of `A` and `B` have no column in common, or the sum fits into the space row `i` of `A`
has already. -/
def SumFits (A B : Csr R) (N i : Nat) : Prop :=
  (∀ j, j < N → A.Stored i j → ¬ B.Stored i j) ∨ unionFill A B N i ≤ (A.data.get i).alloc

theorem SumFits.addFits {A B : Csr R} {N i : Nat} {a b : Spec.Mat R} (hA : A.Rep N a)
    (hB : B.Rep N b) (hi : i < N) (h : SumFits A B N i) :
    Csr.AddFits (A.data.get i).alloc (A.row i) (B.row i) := by
  rcases h with h | h
  · refine Csr.addFits_of_disjoint fun c hc hc' => ?_
    obtain ⟨p, hp, rfl⟩ := List.mem_map.1 hc
    exact h p.1 ((hA.good hi).2 p hp) (Csr.stored_iff.2 hc) (Csr.stored_iff.2 hc')
  · refine Csr.addFits_of_card (hA.good hi) (hB.good hi)
      (fun c => decide (A.Stored i c ∨ B.Stored i c)) (fun c _ hc => ?_) ?_
    · simpa [Csr.stored_iff] using hc
    · simpa [unionFill] using h

/-- **C08 (partial)**, CSR: the sum, for every schedule of the two loops and every content of the
tables' memory.  Missing: rows that have to grow while columns of both matrices remain (freed memory
is written then, `C08_csr_add_ub_witness`), and more than 174762 entries in a row
(`C26`). -/
theorem C08_csr_add_partial {N : Nat} {A B : Csr R} {a b : Spec.Mat R} (hA : A.Represents N a)
    (hB : B.Represents N b) (α β : R) (big : R → Bool) {sc sc' : Sched} (hsc : IsSched 0 N sc)
    (hsc' : IsSched 0 N sc') (junk : Nat → Hash.Slot)
    (hsz : ∀ i, i < N → (A.data.get i).nnz ≤ 174762) (hfit : ∀ i, i < N → SumFits A B N i) :
    ∃ A', A.add B α β big sc sc' junk = .ok A' ∧ A'.M = A.M ∧
      A'.Represents N (Spec.add big α β a b) := by
  have hRA := Csr.represents_iff.1 hA
  have hRB := Csr.represents_iff.1 hB
  exact Csr.exists_of_wpM (Res.wp_mono (Csr.wp_add hRA hRB α β big hsc hsc' junk
    (fun i hi => by unfold Csr.row; rw [CsrRow.list_length]; exact hsz i hi)
    (fun i hi => (hfit i hi).addFits hRA hRB hi)) fun _ h => ⟨h.1, h.2.1⟩)

example : ∃ A', exC.add exC 2 1 (fun x => decide (x ≠ 0)) [(1, 1), (0, 0)] [(1, 1), (0, 0)]
    (fun _ => ⟨none, 0, 0⟩) = .ok A' ∧ A'.M = 2 ∧ A'.Represents 2 (Spec.add (fun x => decide (x ≠ 0))
      2 1 exCm exCm) :=
  C08_csr_add_partial (sc := [(1, 1), (0, 0)]) (sc' := [(1, 1), (0, 0)]) exC_rep exC_rep 2 1 _ (List.Perm.swap 0 1 []) (List.Perm.swap 0 1 []) _
    (by decide) (by unfold SumFits unionFill; decide)

/-- The row of the next two theorems: columns 0 to 9, and room for ten entries. -/
def exFull : Csr Int := Csr.ofRows 11 10 fun i => if i = 0 then (List.range 10).map fun j => (j, 1) else []

/-- Columns 10 and 0, in this order. -/
def exGrow : Csr Int := Csr.ofRows 11 10 fun i => if i = 0 then [(10, 1), (0, 1)] else []

/-- **C08 fails for CSR rows that grow**: adding `exGrow` to `exFull`, column 10 does not fit and
the row is reallocated; the entry for column 0 is then written through the old pointer. -/
theorem C08_csr_add_ub_witness :
    exFull.Represents 11 (fun i j => SRow.den
      (if i = 0 then (List.range 10).map fun j => (j, 1) else []) j) ∧
    exGrow.Represents 11 (fun i j => SRow.den (if i = 0 then [(10, 1), (0, 1)] else []) j) ∧
    exFull.add exGrow 1 1 (fun x => decide (x ≠ 0)) (seqSched 0 11) (seqSched 0 11)
      (fun _ => ⟨none, 0, 0⟩) = .ub := by
  refine ⟨Csr.ofRows_rep (rows := fun i => if i = 0 then (List.range 10).map fun j => (j, 1) else [])
      (by decide), Csr.ofRows_rep (rows := fun i => if i = 0 then [(10, 1), (0, 1)] else [])
      (by decide), Res.eq_ub_of_isUb (by decide +kernel)⟩

/-- `bml_add(A, A, alpha, beta)` with the same matrix twice: `alpha A + beta alpha A`. -/
theorem C08_csr_add_self_value {N : Nat} {A : Csr R} {a : Spec.Mat R} (hA : A.Represents N a)
    (α β : R) (big : R → Bool) {sc sc' : Sched} (hsc : IsSched 0 N sc) (hsc' : IsSched 0 N sc')
    (junk : Nat → Hash.Slot) (hsz : ∀ i, i < N → (A.data.get i).nnz ≤ 174762) :
    ∃ A', A.addSelf α β big sc sc' junk = .ok A' ∧ A'.M = A.M ∧
      A'.Represents N (Spec.add big α (β * α) a a) :=
  Csr.exists_of_wpM (Csr.wp_addSelf (Csr.represents_iff.1 hA) α β big hsc hsc' junk
    fun i hi => by unfold Csr.row; rw [CsrRow.list_length]; exact hsz i hi)

/-- **C08 fails for `bml_add(A, A, 2, 1)`**: the element 2 becomes 8 instead of 6. -/
theorem C08_csr_add_self_witness :
    ∃ A', exC.addSelf 2 1 (fun x => decide (x ≠ 0)) (seqSched 0 2) (seqSched 0 2)
      (fun _ => ⟨none, 0, 0⟩) = .ok A' ∧ A'.getElement 0 1 = .ok 8 ∧
      2 * exCm 0 1 + 1 * exCm 0 1 = 6 := by
  obtain ⟨A', e, -, h⟩ := C08_csr_add_self_value exC_rep 2 1 (fun x => decide (x ≠ 0))
    (isSched_seq 0 2) (isSched_seq 0 2) (fun _ => ⟨none, 0, 0⟩) (by decide)
  exact ⟨A', e, (h.get 0 1 (by omega) (by omega)).trans (by decide), by decide⟩

omit [CommRing R] in
/-- `bml_add_norm` is not implemented for CSR matrices and says so. -/
theorem C08_csr_add_norm (A B : Csr R) : A.addNorm B = .error := rfl

/-- **C09**, CSR, without conditions. -/
theorem C09_csr_add_identity [DecidableEq R] {N : Nat} {A : Csr R} {a : Spec.Mat R}
    (hA : A.Represents N a) (β : R) (big : R → Bool) {sc sc' : Sched} (hsc : IsSched 0 N sc)
    (hsc' : IsSched 0 N sc') :
    ∃ A', A.addIdentity β big sc sc' = .ok A' ∧ A'.M = A.M ∧
      A'.Represents N (Spec.addIdentity big β a) := by
  obtain ⟨A', e, h1, h⟩ :=
    Csr.exists_of_wpM (Csr.wp_addIdentity (Csr.represents_iff.1 hA) β big hsc hsc')
  refine ⟨A', e, h1, h.congr fun i j _ _ => ?_⟩
  simp [Spec.addIdentity, Spec.one]

/-- **C09 (partial)**: `alpha A + beta I` thresholded, when the factor is passed in the element
type (double precision; for the other types `alphaR` is not `alpha`). -/
theorem C09_csr_scale_add_identity_partial [DecidableEq R] {N : Nat} {A : Csr R} {a : Spec.Mat R}
    (hA : A.Represents N a) (α β : R) (big : R → Bool) {sc sc1 sc2 : Sched} (hsc : IsSched 0 N sc)
    (hsc1 : IsSched 0 N sc1) (hsc2 : IsSched 0 N sc2) :
    ∃ A', A.scaleAddIdentity α β big sc sc1 sc2 = .ok A' ∧ A'.M = A.M ∧
      A'.Represents N (Spec.addIdentity big β (Spec.scale α a)) := by
  obtain ⟨A1, e1, h1, h⟩ :=
    Csr.exists_of_wpM (Csr.wp_scaleInplace (Csr.represents_iff.1 hA) α hsc)
  obtain ⟨A', e, h2, h'⟩ := C09_csr_add_identity h β big hsc1 hsc2
  exact ⟨A', by unfold Csr.scaleAddIdentity; rw [e1, Res.bind_ok]; exact e, h2.trans h1, h'⟩

/-- The full first row has no diagonal entry and grows. -/
example : ∃ A', (Csr.ofRows 11 10 fun i => if i = 10 then (List.range 10).map fun j => (j, (1 : Int))
      else []).addIdentity 5 (fun x => decide (x ≠ 0)) (seqSched 0 11) (seqSched 0 11) = .ok A' ∧
    A'.getElement 10 10 = .ok 5 ∧ A'.getElement 10 9 = .ok 1 := by
  obtain ⟨A', e, -, h⟩ := C09_csr_add_identity (Csr.ofRows_rep (N := 11) (M := 10)
    (rows := fun i => if i = 10 then (List.range 10).map fun j => (j, (1 : Int)) else [])
    (by decide)) 5 (fun x => decide (x ≠ 0)) (isSched_seq 0 11) (isSched_seq 0 11)
  exact ⟨A', e, (h.get 10 10 (by omega) (by omega)).trans (by decide),
    (h.get 10 9 (by omega) (by omega)).trans (by decide)⟩

/-- **C10**, CSR. -/
theorem C10_csr_scale_inplace {N : Nat} {A : Csr R} {a : Spec.Mat R} (hA : A.Represents N a) (c : R)
    {sc : Sched} (hsc : IsSched 0 N sc) :
    ∃ A', A.scaleInplace c sc = .ok A' ∧ A'.M = A.M ∧ A'.Represents N (Spec.scale c a) :=
  Csr.exists_of_wpM (Csr.wp_scaleInplace (Csr.represents_iff.1 hA) c hsc)

theorem C10_csr_scale_new {N : Nat} {A : Csr R} {a : Spec.Mat R} (hA : A.Represents N a) (c : R)
    {sc sc' : Sched} (hsc : IsSched 0 N sc) (hsc' : IsSched 0 N sc') (jd : Nat → CsrRow R)
    (jv : Nat → Nat → R) (ji : Nat → Nat → Nat) :
    ∃ B, Csr.scaleNew c A sc sc' jd jv ji = .ok B ∧ B.M = A.M ∧ B.Represents N (Spec.scale c a) := by
  obtain ⟨B, e, h1, h⟩ := C07_csr_copy_new hA hsc jd jv ji
  obtain ⟨B', e', h2, h'⟩ := C10_csr_scale_inplace h c hsc'
  exact ⟨B', by unfold Csr.scaleNew; rw [e, Res.bind_ok]; exact e', h2.trans h1, h'⟩

theorem C10_csr_scale_partial {N : Nat} {A B : Csr R} {a b : Spec.Mat R} (hA : A.Represents N a)
    (hB : B.Represents N b) (c : R) {sc sc' : Sched} (hsc : IsSched 0 N sc) (hsc' : IsSched 0 N sc')
    (hfit : ∀ i, i < N → (A.data.get i).nnz ≤ (B.data.get i).alloc) :
    ∃ B', Csr.scale c A B sc sc' = .ok B' ∧ B'.Represents N (Spec.scale c a) := by
  obtain ⟨B1, e, h⟩ := (C07_csr_copy_partial hA hB hsc).2 hfit
  obtain ⟨B', e', -, h'⟩ := C10_csr_scale_inplace h c hsc'
  exact ⟨B', by unfold Csr.scale; rw [e, Res.bind_ok]; exact e', h'⟩

example : ∃ B', Csr.scale 3 exC (Csr.newZero 2 1) [(0, 1), (1, 0)] (seqSched 0 2) = .ok B' ∧
    B'.getElement 0 1 = .ok 6 := by
  obtain ⟨B', e, h⟩ := C10_csr_scale_partial exC_rep (C32_csr_zero 2 1) 3
    (sc := [(0, 1), (1, 0)]) (List.Perm.swap 0 1 []) (isSched_seq 0 2) (by decide)
  exact ⟨B', e, (h.get 0 1 (by omega) (by omega)).trans (by decide)⟩

/-- **C11**, CSR: elements above the threshold are kept, all others are zero and are not stored. -/
theorem C11_csr_threshold {N : Nat} {A : Csr R} {a : Spec.Mat R} (hA : A.Represents N a)
    (big : R → Bool) {sc : Sched} (hsc : IsSched 0 N sc) :
    ∃ A', A.threshold big sc = .ok A' ∧ A'.M = A.M ∧ A'.Represents N (Spec.threshold big a) ∧
      ∀ i j, i < N → A'.Stored i j → big (a i j) = true := by
  have hR := Csr.represents_iff.1 hA
  obtain ⟨A', e, h1, h2, h3⟩ := Res.wp_exists (Csr.wp_threshold (E := False) hR big hsc)
  refine ⟨A', e, h1, Csr.represents_iff.2 h2, fun i j hi hs => ?_⟩
  rw [Csr.stored_iff, h3 i hi, List.mem_map] at hs
  obtain ⟨p, hp, rfl⟩ := hs
  rw [List.mem_filter] at hp
  have hj := (hR.good hi).2 p hp.1
  rw [← hR.den hi hj, SRow.den_of_mem (hR.good hi).1 (v := p.2) hp.1]
  exact hp.2

/-- **C11**: thresholding twice equals thresholding once. -/
theorem C11_csr_idempotent {N : Nat} {A : Csr R} {a : Spec.Mat R} (hA : A.Represents N a)
    (big : R → Bool) {sc sc' : Sched} (hsc : IsSched 0 N sc) (hsc' : IsSched 0 N sc') :
    ∃ A' A'', A.threshold big sc = .ok A' ∧ A'.threshold big sc' = .ok A'' ∧
      ∀ i j : Nat, i < N → j < N → A''.getElement i j = A'.getElement i j := by
  obtain ⟨A', e, _, h, -⟩ := C11_csr_threshold hA big hsc
  obtain ⟨A'', e', _, h', -⟩ := C11_csr_threshold h big hsc'
  refine ⟨A', A'', e, e', fun i j hi hj => ?_⟩
  rw [h.get i j hi hj, h'.get i j hi hj]
  simp only [Spec.threshold, Spec.keep]
  by_cases hb : big (a i j) = true <;> simp [hb]

/-- **C11 (partial)**, `bml_threshold_new` on CSR matrices, when at most one entry per row is
kept. -/
theorem C11_csr_threshold_new_partial {N : Nat} {A : Csr R} {a : Spec.Mat R}
    (hA : A.Represents N a) (big : R → Bool) {sc : Sched} (hsc : IsSched 0 N sc)
    (hone : ∀ i, i < N → ∀ j, j < N → ∀ j', j' < N → A.Stored i j → A.Stored i j' →
      big (a i j) = true → big (a i j') = true → j = j') :
    ∃ B, A.thresholdNew big sc = .ok B ∧ B.M = A.M ∧ B.Represents N (Spec.threshold big a) := by
  have hR := Csr.represents_iff.1 hA
  refine Csr.exists_of_wpM (Csr.wp_thresholdNew hR big hsc fun i hi => ?_)
  have hg := hR.good hi
  have hval : ∀ p ∈ A.row i, a i p.1 = p.2 := fun p hp => by
    rw [← hR.den hi (hg.2 p hp), SRow.den_of_mem hg.1 (v := p.2) hp]
  by_contra hlen
  have hn : ((A.row i).filter fun p => big p.2).Nodup := (List.Nodup.of_map _ hg.1).filter _
  match hL : (A.row i).filter fun p => big p.2 with
  | [] => rw [hL] at hlen; simp at hlen
  | [_] => rw [hL] at hlen; simp at hlen
  | p :: q :: l =>
    rw [hL] at hn
    have hp : p ∈ (A.row i).filter fun p => big p.2 := by rw [hL]; simp
    have hq : q ∈ (A.row i).filter fun p => big p.2 := by rw [hL]; simp
    rw [List.mem_filter] at hp hq
    have h1 : p.1 = q.1 := hone i hi p.1 (hg.2 p hp.1) q.1 (hg.2 q hq.1)
      (Csr.stored_iff.2 (List.mem_map.2 ⟨p, hp.1, rfl⟩))
      (Csr.stored_iff.2 (List.mem_map.2 ⟨q, hq.1, rfl⟩))
      (by rw [hval p hp.1]; exact hp.2) (by rw [hval q hq.1]; exact hq.2)
    have h2 : p = q := Prod.ext h1 (by rw [← hval p hp.1, ← hval q hq.1, h1])
    simp [h2] at hn

/-- **C11 fails for `bml_threshold_new` on CSR matrices**: with nothing to drop, the first row
`(1, 2)` becomes `(1, 0)`: all kept entries of a row are written to the same place. -/
theorem C11_csr_threshold_new_witness :
    ∃ B, exC.thresholdNew (fun x => decide (x ≠ 0)) (seqSched 0 2) = .ok B ∧
      B.getElement 0 0 = .ok 1 ∧ B.getElement 0 1 = .ok 0 ∧ exC.getElement 0 1 = .ok 2 :=
  ⟨_, rfl, by decide, by decide, by decide⟩

example : ∃ B, exC.thresholdNew (fun x => decide (1 < x)) (seqSched 0 2) = .ok B ∧ B.M = 2 ∧
    B.Represents 2 (Spec.threshold (fun x => decide (1 < x)) exCm) :=
  C11_csr_threshold_new_partial exC_rep _ (isSched_seq 0 2) (by
    intro i hi j hj j' hj'
    interval_cases i <;> interval_cases j <;> interval_cases j' <;> decide)

example : ∃ A', exC.threshold (fun x => decide (1 < x)) [(1, 1), (0, 0)] = .ok A' ∧
    A'.getElement 0 0 = .ok 0 ∧ A'.getElement 0 1 = .ok 2 := by
  obtain ⟨A', e, -, h, -⟩ := C11_csr_threshold exC_rep (fun x => decide (1 < x))
    (sc := [(1, 1), (0, 0)]) (List.Perm.swap 0 1 [])
  exact ⟨A', e, (h.get 0 0 (by omega) (by omega)).trans (by decide),
    (h.get 0 1 (by omega) (by omega)).trans (by decide)⟩

/-! ## C12, C13, C14, C16, C35 -/

/-- **C12**, CSR, for every schedule: no overflow is possible. -/
theorem C12_csr_multiply_AB {N : Nat} {A B C : Csr R} {a b c : Spec.Mat R} (hA : A.Represents N a)
    (hB : B.Represents N b) (hC : C.Represents N c) (big : R → Bool) {sc : Sched}
    (hsc : IsSched 0 N sc) :
    ∃ C', Csr.multAB A B C big sc = .ok C' ∧ C'.M = C.M ∧
      C'.Represents N (Spec.keepOff big (Spec.mul N a b)) :=
  Csr.exists_of_wpM (Res.wp_mono (Csr.wp_multAB (Csr.represents_iff.1 hA)
    (Csr.represents_iff.1 hB) (Csr.represents_iff.1 hC) big hsc) fun _ h => ⟨h.1, h.2.1⟩)

/-- **C16**, CSR: `bml_multiply_adjust_AB` is the same function. -/
theorem C16_csr_multiply_adjust_AB {N : Nat} {A B C : Csr R} {a b c : Spec.Mat R}
    (hA : A.Represents N a) (hB : B.Represents N b) (hC : C.Represents N c) (big : R → Bool)
    {sc : Sched} (hsc : IsSched 0 N sc) :
    ∃ C', Csr.multAdjustAB A B C big sc = .ok C' ∧ C'.M = C.M ∧
      C'.Represents N (Spec.keepOff big (Spec.mul N a b)) := C12_csr_multiply_AB hA hB hC big hsc

/-- **C13**, CSR, for every schedule. -/
theorem C13_csr_x2 {N : Nat} {X C : Csr R} {x c : Spec.Mat R} (hX : X.Represents N x)
    (hC : C.Represents N c) (big : R → Bool) {sc : Sched} (hsc : IsSched 0 N sc) :
    ∃ C', Csr.multX2 X C big sc = .ok (C', (Spec.tr N x, Spec.tr N (Spec.mul N x x))) ∧
      C'.M = C.M ∧ C'.Represents N (Spec.keepOff big (Spec.mul N x x)) := by
  obtain ⟨⟨C', t⟩, e, h1, h2, -, h4⟩ := Res.wp_exists (Csr.wp_multX2 (E := False)
    (Csr.represents_iff.1 hX) (Csr.represents_iff.1 hC) big hsc)
  simp only at h1 h2 h4
  rw [h4] at e
  exact ⟨C', e, h1, Csr.represents_iff.2 h2⟩

/-- **C14 (partial)**, CSR, distinct matrices: `beta C + alpha (AB)`, thresholded as in add.  The
conditions are those of `bml_add` for `C` and the product. -/
theorem C14_csr_multiply_partial {N : Nat} {A B C : Csr R} {a b c : Spec.Mat R}
    (hA : A.Represents N a) (hB : B.Represents N b) (hC : C.Represents N c) (α β : R)
    (big : R → Bool) {sc sc1 sc2 : Sched} (hsc : IsSched 0 N sc)
    (hsc1 : IsSched 0 N sc1) (hsc2 : IsSched 0 N sc2) (jv : Nat → Nat → R) (ji : Nat → Nat → Nat)
    (junk : Nat → Hash.Slot) (hsz : ∀ i, i < N → (C.data.get i).nnz ≤ 174762)
    (hfit : ∀ i, i < N → Csr.ProdFits A B C N i) :
    ∃ C', Csr.multiply A B C α β big sc sc1 sc2 jv ji junk = .ok C' ∧ C'.M = C.M ∧
      C'.Represents N (Spec.add big β α c (Spec.keepOff big (Spec.mul N a b))) :=
  Csr.exists_of_wpM (Csr.wp_multiply (Csr.represents_iff.1 hA) (Csr.represents_iff.1 hB)
    (Csr.represents_iff.1 hC) α β big hsc hsc1 hsc2 jv ji junk
    (fun i hi => by unfold Csr.row; rw [CsrRow.list_length]; exact hsz i hi) hfit)

/-- **C14**, CSR, `bml_multiply(A, A, C, 1, 0, t)`: no conditions. -/
theorem C14_csr_square [DecidableEq R] {N : Nat} {A C : Csr R} {a c : Spec.Mat R}
    (hA : A.Represents N a) (hC : C.Represents N c) (big : R → Bool) {sc sc1 sc2 : Sched}
    (hsc : IsSched 0 N sc) (hsc1 : IsSched 0 N sc1) (hsc2 : IsSched 0 N sc2) (jv : Nat → Nat → R)
    (ji : Nat → Nat → Nat) (junk : Nat → Hash.Slot) :
    ∃ C', Csr.multiplySelf A C 1 0 big sc sc1 sc2 jv ji junk = .ok C' ∧ C'.M = C.M ∧
      C'.Represents N (Spec.keepOff big (Spec.mul N a a)) :=
  Csr.exists_of_wpM ((Csr.wp_multiplySelf (Csr.represents_iff.1 hA) (Csr.represents_iff.1 hC) 1 0
    big hsc hsc1 hsc2 jv ji junk).1 rfl rfl)

/-- **C14 (partial)**, CSR, `A` and `B` the same matrix, other factors. -/
theorem C14_csr_multiply_self_partial [DecidableEq R] {N : Nat} {A C : Csr R} {a c : Spec.Mat R}
    (hA : A.Represents N a) (hC : C.Represents N c) {α β : R} (hαβ : ¬ (α = 1 ∧ β = 0))
    (big : R → Bool) {sc sc1 sc2 : Sched}
    (hsc : IsSched 0 N sc) (hsc1 : IsSched 0 N sc1) (hsc2 : IsSched 0 N sc2) (jv : Nat → Nat → R)
    (ji : Nat → Nat → Nat) (junk : Nat → Hash.Slot) (hsz : ∀ i, i < N → (C.data.get i).nnz ≤ 174762)
    (hfit : ∀ i, i < N → Csr.ProdFits A A C N i) :
    ∃ C', Csr.multiplySelf A C α β big sc sc1 sc2 jv ji junk = .ok C' ∧ C'.M = C.M ∧
      C'.Represents N (Spec.add big β α c (Spec.keepOff big (Spec.mul N a a))) :=
  Csr.exists_of_wpM ((Csr.wp_multiplySelf (Csr.represents_iff.1 hA) (Csr.represents_iff.1 hC) α β
    big hsc hsc1 hsc2 jv ji junk).2 hαβ
    (fun i hi => by unfold Csr.row; rw [CsrRow.list_length]; exact hsz i hi) hfit)

example : ∃ C', Csr.multAB exC exC (Csr.newZero 2 1) (fun x => decide (2 < x)) [(1, 1), (0, 0)] =
    .ok C' ∧ C'.getElement 0 0 = .ok 7 ∧ C'.getElement 0 1 = .ok 0 := by
  obtain ⟨C', e, -, h⟩ := C12_csr_multiply_AB exC_rep exC_rep (C32_csr_zero 2 1)
    (fun x => decide (2 < x)) (sc := [(1, 1), (0, 0)]) (List.Perm.swap 0 1 [])
  exact ⟨C', e, (h.get 0 0 (by omega) (by omega)).trans (by decide),
    (h.get 0 1 (by omega) (by omega)).trans (by decide)⟩

example : ∃ C', Csr.multX2 exC (Csr.newZero 2 1) (fun x => decide (2 < x)) [(1, 1), (0, 0)] =
    .ok (C', (1, 13)) ∧ C'.getElement 1 1 = .ok 6 := by
  obtain ⟨C', e, -, h⟩ := C13_csr_x2 exC_rep (C32_csr_zero 2 1)
    (fun x => decide (2 < x)) (sc := [(1, 1), (0, 0)]) (List.Perm.swap 0 1 [])
  exact ⟨C', e.trans (by rw [show (Spec.tr 2 exCm, Spec.tr 2 (Spec.mul 2 exCm exCm)) = (1, 13) by
    decide]), (h.get 1 1 (by omega) (by omega)).trans (by decide)⟩

example : ∃ C', Csr.multiply exC exC exC 2 3 (fun x => decide (x ≠ 0)) (seqSched 0 2) (seqSched 0 2)
      (seqSched 0 2) (fun _ _ => 0) (fun _ _ => 0) (fun _ => ⟨none, 0, 0⟩) = .ok C' ∧
    C'.getElement 0 0 = .ok 17 := by
  obtain ⟨C', e, -, h⟩ := C14_csr_multiply_partial exC_rep exC_rep exC_rep 2 3
    (fun x => decide (x ≠ 0)) (isSched_seq 0 2) (isSched_seq 0 2) (isSched_seq 0 2) (fun _ _ => 0)
    (fun _ _ => 0) (fun _ => ⟨none, 0, 0⟩) (by decide) (by unfold Csr.ProdFits Csr.unionCols; decide)
  exact ⟨C', e, (h.get 0 0 (by omega) (by omega)).trans (by decide)⟩

/-- **C35**, CSR. -/
theorem C35_csr_element_multiply {N : Nat} {A B C : Csr R} {a b c : Spec.Mat R}
    (hA : A.Represents N a) (hB : B.Represents N b) (hC : C.Represents N c) (big : R → Bool)
    {sc : Sched} (hsc : IsSched 0 N sc) :
    ∃ C', Csr.elementMultiply A B C big sc = .ok C' ∧ C'.M = C.M ∧
      C'.Represents N (Spec.keepOff big fun i j => a i j * b i j) :=
  Csr.exists_of_wpM (Csr.wp_elementMultiply (Csr.represents_iff.1 hA) (Csr.represents_iff.1 hB)
    (Csr.represents_iff.1 hC) big hsc)

example : ∃ C', Csr.elementMultiply exC exC (Csr.newZero 2 1) (fun x => decide (4 < x))
      [(1, 1), (0, 0)] = .ok C' ∧ C'.getElement 0 0 = .ok 1 ∧ C'.getElement 0 1 = .ok 0 ∧
      C'.getElement 1 0 = .ok 9 := by
  obtain ⟨C', e, -, h⟩ := C35_csr_element_multiply exC_rep exC_rep (C32_csr_zero 2 1)
    (fun x => decide (4 < x)) (sc := [(1, 1), (0, 0)]) (List.Perm.swap 0 1 [])
  exact ⟨C', e, (h.get 0 0 (by omega) (by omega)).trans (by decide),
    (h.get 0 1 (by omega) (by omega)).trans (by decide),
    (h.get 1 0 (by omega) (by omega)).trans (by decide)⟩

/-! ## C17, C18 -/

/-- **C17**, CSR, for every order in which the entries are appended (rows grow, so there is no
condition on the columns). -/
theorem C17_csr_transpose_new {N : Nat} {A : Csr R} {a : Spec.Mat R} (hA : A.Represents N a)
    {sc : List (Nat × Nat)} (hsc : sc.Perm A.slots) (jv : Nat → Nat → R) (ji : Nat → Nat → Nat) :
    ∃ B, A.transposeNew sc jv ji = .ok B ∧ B.M = A.M ∧ B.Represents N (Spec.transpose a) :=
  Csr.exists_of_wpM (Csr.wp_transposeNew (Csr.represents_iff.1 hA) hsc jv ji)

/-- **C18**, CSR: terminates, no conditions, and applied twice restores every element. -/
theorem C18_csr_transpose {N : Nat} {A : Csr R} {a : Spec.Mat R} (hA : A.Represents N a) :
    ∃ B, A.transposeInPlace = .ok B ∧ B.M = A.M ∧ B.Represents N (Spec.transpose a) ∧
      ∃ C, B.transposeInPlace = .ok C ∧ C.Represents N a := by
  obtain ⟨B, e, h1, h⟩ := Csr.exists_of_wpM (Csr.wp_transposeInPlace (Csr.represents_iff.1 hA))
  obtain ⟨C, e', -, h'⟩ := Csr.exists_of_wpM (Csr.wp_transposeInPlace (Csr.represents_iff.1 h))
  exact ⟨B, e, h1, h, C, e', h'⟩

example : ∃ B, exC.transposeNew [(1, 0), (0, 1), (0, 0)] (fun _ _ => 0) (fun _ _ => 0) = .ok B ∧
    B.getElement 0 1 = .ok 3 ∧ B.getElement 1 0 = .ok 2 := by
  obtain ⟨B, e, -, h⟩ := C17_csr_transpose_new exC_rep (sc := [(1, 0), (0, 1), (0, 0)])
    (by decide) (fun _ _ => 0) (fun _ _ => 0)
  exact ⟨B, e, (h.get 0 1 (by omega) (by omega)).trans (by decide),
    (h.get 1 0 (by omega) (by omega)).trans (by decide)⟩

example : ∃ B, exC.transposeInPlace = .ok B ∧ B.getElement 0 1 = .ok 3 := by
  obtain ⟨B, e, -, h, -⟩ := C18_csr_transpose exC_rep
  exact ⟨B, e, (h.get 0 1 (by omega) (by omega)).trans (by decide)⟩

/-! ## C20, C21, C37, C45 -/

/-- **C20**, CSR: the trace. -/
theorem C20_csr_trace {N : Nat} {A : Csr R} {a : Spec.Mat R} (hA : A.Represents N a) {sc : Sched}
    (hsc : IsSched 0 N sc) : A.trace sc = .ok (Spec.tr N a) :=
  Csr.trace_eq (Csr.represents_iff.1 hA) hsc

/-- **C20**, CSR: the trace of the product — in this format without the transposition that the
dense and the ELLPACK format have. -/
theorem C20_csr_trace_mult {N : Nat} {A B : Csr R} {a b : Spec.Mat R} (hA : A.Represents N a)
    (hB : B.Represents N b) {sc : Sched} (hsc : IsSched 0 N sc) :
    A.traceMult B sc = .ok (Spec.tr N (Spec.mul N a b)) :=
  Csr.traceMult_eq (Csr.represents_iff.1 hA) (Csr.represents_iff.1 hB) hsc

theorem C20_csr_trace_mult_mismatch {A B : Csr R} (h : A.N ≠ B.N) (sc : Sched) :
    A.traceMult B sc = .error := if_pos h

/-- **C20 fails: formats disagree.**  `A = [[1,2],[3,4]]`: `bml_trace_mult(A, A)` is 29 for CSR and
30 for dense matrices. -/
theorem C20_trace_mult_formats_differ :
    (Csr.ofRows 2 2 fun i => [(0, exD i 0), (1, exD i 1)]).traceMult
      (Csr.ofRows 2 2 fun i => [(0, exD i 0), (1, exD i 1)]) (seqSched 0 2) = .ok 29 ∧
    (Dense.ofMat 2 exD).traceMult (Dense.ofMat 2 exD) (seqSched (0 * 2) (2 * 2)) = .ok 30 :=
  ⟨by decide, C20_dense_trace_mult_witness.1⟩

example : exC.traceMult exC [(1, 1), (0, 0)] = .ok 13 :=
  (C20_csr_trace_mult exC_rep exC_rep (sc := [(1, 1), (0, 0)]) (List.Perm.swap 0 1 [])).trans
    (by decide)

/-- **C21**, CSR. -/
theorem C21_csr_sum_squares {N : Nat} {A : Csr R} {a : Spec.Mat R} (hA : A.Represents N a)
    {sc : Sched} (hsc : IsSched 0 N sc) :
    A.sumSquares sc = .ok (Spec.total N N fun i j => a i j * a i j) :=
  Csr.sumSquares_eq (Csr.represents_iff.1 hA) hsc

theorem C21_csr_sum_squares_submatrix {N core : Nat} {A : Csr R} {a : Spec.Mat R}
    (hA : A.Represents N a) (hc : core ≤ N) {sc : Sched} (hsc : IsSched 0 core sc) :
    A.sumSquaresSubmatrix core sc = .ok (Spec.total core core fun i j => a i j * a i j) :=
  Csr.sumSquaresSubmatrix_eq (Csr.represents_iff.1 hA) hc hsc

theorem C21_csr_sum_AB {N : Nat} {A B : Csr R} {a b : Spec.Mat R} (hA : A.Represents N a)
    (hB : B.Represents N b) (α : R) (big : R → Bool) (junk : Nat → Hash.Slot)
    (hsz : ∀ i, i < N → (A.data.get i).nnz ≤ 174762) :
    A.sumAB B α big junk = .ok (Spec.total N N fun i j => Spec.keep big (α * a i j * b i j)) := by
  obtain ⟨s, e, rfl⟩ := Res.wp_exists (Csr.sumAB_wp (E := False) (Csr.represents_iff.1 hA)
    (Csr.represents_iff.1 hB) α big junk
    fun i hi => by unfold Csr.row; rw [CsrRow.list_length]; exact hsz i hi)
  exact e

theorem C21_csr_sum_squares2 {N : Nat} {A B : Csr R} {a b : Spec.Mat R} (hA : A.Represents N a)
    (hB : B.Represents N b) (α β : R) (big : R → Bool) (junk : Nat → Hash.Slot)
    (hsz : ∀ i, i < N → (A.data.get i).nnz ≤ 174762) :
    A.sumSquares2 B α β big junk = .ok (Spec.total N N fun i j =>
      Spec.add big α β a b i j * Spec.add big α β a b i j) := by
  obtain ⟨s, e, rfl⟩ := Res.wp_exists (Csr.sumSquares2_wp (E := False) (Csr.represents_iff.1 hA)
    (Csr.represents_iff.1 hB) α β big junk
    fun i hi => by unfold Csr.row; rw [CsrRow.list_length]; exact hsz i hi)
  exact e

/-- **C21**: the three formats return the same sum of squares, for all schedules. -/
theorem C21_csr_formats_agree {N : Nat} {A : Ell R} {D : Dense R} {S : Csr R} {a : Spec.Mat R}
    (hA : A.Represents N a) (hD : D.Represents N a) (hS : S.Represents N a) {sc sc' sc'' : Sched}
    (hsc : IsSched 0 N sc) (hsc' : IsSched (0 * N) (N * N) sc') (hsc'' : IsSched 0 N sc'') :
    S.sumSquares sc'' = Ell.sumSquares A sc ∧ S.sumSquares sc'' = D.sumSquares sc' := by
  rw [C21_csr_sum_squares hS hsc'', C21_sum_squares hA hsc, C21_dense_sum_squares hD hsc']
  exact ⟨rfl, rfl⟩

example : exC.sumSquares [(1, 1), (0, 0)] = .ok 14 ∧
    exC.sumSquaresSubmatrix 1 [(0, 0)] = .ok 1 ∧
    exC.sumAB exC 2 (fun x => decide (2 < x)) (fun _ => ⟨none, 0, 0⟩) = .ok 26 ∧
    exC.sumSquares2 exC 2 1 (fun x => decide (3 < x)) (fun _ => ⟨none, 0, 0⟩) = .ok 117 :=
  ⟨(C21_csr_sum_squares exC_rep (sc := [(1, 1), (0, 0)]) (List.Perm.swap 0 1 [])).trans (by decide),
    (C21_csr_sum_squares_submatrix exC_rep (core := 1) (by omega) (sc := [(0, 0)])
      (List.Perm.refl _)).trans (by decide),
    (C21_csr_sum_AB exC_rep exC_rep 2 _ _ (by decide)).trans (by decide),
    (C21_csr_sum_squares2 exC_rep exC_rep 2 1 _ _ (by decide)).trans (by decide)⟩

omit [CommRing R] in
/-- **C37 is not available for CSR**: `bml_fnorm2` is not implemented and says so. -/
theorem C37_csr_not_implemented (A B : Csr R) : A.fnorm2 B = .error := rfl

/-- **C45**, real element types, CSR. -/
theorem C45_csr_fnorm_partial {N : Nat} {A : Csr ℝ} {a : Spec.Mat ℝ} (hA : A.Represents N a)
    {sc : Sched} (hsc : IsSched 0 N sc) :
    ∃ x, A.fnorm sc = .ok x ∧ 0 ≤ x ∧ x ^ 2 = Spec.total N N (fun i j => |a i j| ^ 2) := by
  refine ⟨_, by unfold Csr.fnorm sqrtReal; rw [C21_csr_sum_squares hA hsc]; rfl,
    Real.sqrt_nonneg _, ?_⟩
  rw [Real.sq_sqrt]
  · exact Finset.sum_congr rfl fun i _ => Finset.sum_congr rfl fun j _ => by
      simp only; rw [sq_abs, sq]
  · exact Finset.sum_nonneg fun i _ => Finset.sum_nonneg fun j _ => mul_self_nonneg _

/-- **C45 fails for complex types**: `[i]` has norm 0. -/
theorem C45_csr_complex_witness :
    (Csr.ofRows 1 1 fun _ => [(0, Complex.I)]).fnormComplex (seqSched 0 1) = .ok 0 := by
  unfold Csr.fnormComplex sqrtComplex
  rw [C21_csr_sum_squares (N := 1) (a := fun i j => SRow.den [(0, Complex.I)] j)
    (Csr.ofRows_rep (fun i hi => ⟨by simp, by simp⟩)) (isSched_seq 0 1)]
  simp [Spec.total, SRow.den, Real.sqrt_eq_zero']

/-! ## C22, C23 -/

section Spectrum

variable {K : Type} [Field K] [LinearOrder K]

/-- **C22**, CSR: the values of `bml_gershgorin` and, for `n` rows, of `bml_gershgorin_partial`. -/
theorem C22_csr_gershgorin_value {N : Nat} {A : Csr R} {a : Spec.Mat R}
    (hA : A.Represents N a) (absv re : R → K) (h0 : absv 0 = 0) (top bot : K) {n : Nat}
    (hn : n ≤ N) :
    ∃ e, A.gershgorinPartial absv re top bot n = .ok e ∧
      Ell.IsMinOf top 0 n (fun i => re (a i i) - Spec.radius absv N a i) e.1 ∧
      Ell.IsMaxOf bot 0 n (fun i => re (a i i) + Spec.radius absv N a i) e.2 :=
  Res.wp_exists (Csr.wp_gershgorinPartial (E := False) (Csr.represents_iff.1 hA) absv re h0 top bot
    hn)

variable [IsStrictOrderedRing K]

/-- **C22**, CSR: every eigenvalue's real part lies between the two numbers. -/
theorem C22_csr_gershgorin {N : Nat} {A : Csr R} {a : Spec.Mat R} (hA : A.Represents N a)
    (abv : AbsoluteValue R K) (re : R →+ K) (hre : ∀ x, |re x| ≤ abv x) (top bot : K) :
    ∃ e, A.gershgorin abv re top bot = .ok e ∧
      ∀ l, Spec.Eigen N a l → e.1 ≤ re l ∧ re l ≤ e.2 := by
  obtain ⟨e, h, h1, h2⟩ := C22_csr_gershgorin_value hA abv re (map_zero abv) top bot (le_refl N)
  refine ⟨e, by unfold Csr.gershgorin; rw [hA.dim]; exact h, fun l hl => ?_⟩
  obtain ⟨i, hi, hc⟩ := hl.circle abv
  have hr := le_trans (hre (l - a i i)) hc
  rw [map_sub, abs_le] at hr
  have g1 := h1.2.1 i (Nat.zero_le i) hi
  have g2 := h2.2.1 i (Nat.zero_le i) hi
  constructor <;> linarith [hr.1, hr.2]

omit [LinearOrder K] [IsStrictOrderedRing K] in
/-- **C22**, `bml_accumulate_offdiag`, CSR. -/
theorem C22_csr_accumulate_offdiag {N : Nat} {A : Csr R} {a : Spec.Mat R}
    (hA : A.Represents N a) (absv : R → K) (h0 : absv 0 = 0) (incl : Bool) :
    ∃ out, A.accumulateOffdiag absv incl = .ok out ∧ out.size = N ∧ ∀ i, i < N →
      out.get i = Spec.radius absv N a i + if incl then absv (a i i) else 0 :=
  Res.wp_exists
    (Csr.wp_accumulateOffdiag (E := False) (Csr.represents_iff.1 hA) absv h0 incl)

/-- **C23**, CSR, without conditions on the rows. -/
theorem C23_csr_normalize {N : Nat} {A : Csr K} {a : Spec.Mat K} (hA : A.Represents N a)
    {mn mx : K} (hlt : mn < mx) {sc sc1 sc2 : Sched} (hsc : IsSched 0 N sc)
    (hsc1 : IsSched 0 N sc1) (hsc2 : IsSched 0 N sc2) :
    ∃ A', A.normalize mn mx sc sc1 sc2 = .ok A' ∧ A'.Represents N (Spec.normalize mn mx a) ∧
      ((∀ l, Spec.Eigen N a l → mn ≤ l ∧ l ≤ mx) →
        ∀ l, Spec.Eigen N (Spec.normalize mn mx a) l → 0 ≤ l ∧ l ≤ 1) := by
  obtain ⟨A', e, -, h⟩ := Csr.exists_of_wpM (Csr.wp_normalize (Csr.represents_iff.1 hA) mn mx
    hsc hsc1 hsc2)
  refine ⟨A', e, h.congr fun i j hi hj => ?_, fun hs l hl => C23_spectrum hlt hs hl⟩
  simp only
  unfold Spec.normalize
  by_cases hij : i = j
  · subst hij
    simp only [if_true]
    rw [div_mul_eq_mul_div, ← add_div]
    congr 1
    ring
  · simp only [hij, if_false, add_zero]
    rw [div_mul_eq_mul_div, zero_sub]
    congr 1
    ring

/-- **C23**, CSR, both calls. -/
theorem C23_csr_gershgorin_normalize {N : Nat} {A : Csr K} {a : Spec.Mat K}
    (hA : A.Represents N a) (top bot : K) {sc sc1 sc2 : Sched} (hsc : IsSched 0 N sc)
    (hsc1 : IsSched 0 N sc1) (hsc2 : IsSched 0 N sc2) :
    ∃ e, A.gershgorin (fun x => |x|) (fun x => x) top bot = .ok e ∧
      (e.1 < e.2 → ∃ A' b, A.normalize e.1 e.2 sc sc1 sc2 = .ok A' ∧ A'.Represents N b ∧
        ∀ l, Spec.Eigen N b l → 0 ≤ l ∧ l ≤ 1) := by
  obtain ⟨e, h, h1⟩ := C22_csr_gershgorin hA AbsoluteValue.abs (AddMonoidHom.id K)
    (fun _ => le_refl _) top bot
  refine ⟨e, h, fun hlt => ?_⟩
  obtain ⟨A', g1, g2, g3⟩ := C23_csr_normalize hA hlt hsc hsc1 hsc2
  exact ⟨A', _, g1, g2, g3 h1⟩

end Spectrum

/-- `[[1,2],[3,0]]` over the rationals. -/
def exCq : Csr Rat := Csr.ofRows 2 2 fun i => if i = 0 then [(1, 2), (0, 1)] else [(0, 3)]

theorem exCq_rep : exCq.Represents 2 (fun i j => SRow.den
    (if i = 0 then [(1, 2), (0, 1)] else [(0, 3)]) j) :=
  Csr.ofRows_rep (rows := fun i => if i = 0 then [(1, 2), (0, 1)] else [(0, 3)]) (by decide +kernel)

example : ∃ e : Rat × Rat, exCq.gershgorin (fun x => |x|) (fun x => x) 1000 (-1000) = .ok e ∧
    (e.1 < e.2 → ∃ A' b, exCq.normalize e.1 e.2 (seqSched 0 2) (seqSched 0 2) (seqSched 0 2) =
      .ok A' ∧ A'.Represents 2 b ∧ ∀ l, Spec.Eigen 2 b l → 0 ≤ l ∧ l ≤ 1) :=
  C23_csr_gershgorin_normalize exCq_rep _ _ (isSched_seq 0 2) (isSched_seq 0 2) (isSched_seq 0 2)

example : exCq.gershgorin (fun x => |x|) (fun x => x) 1000 (-1000) = .ok (-3, 3) := by
  decide +kernel

/-! ## C28, C30, C33 -/

/-- **C28**, CSR: extraction; `big0` is the test for magnitude above zero. -/
theorem C28_csr_extract {N n irow icol : Nat} {A : Csr R} {a : Spec.Mat R}
    (hA : A.Represents N a) (bM : Nat) (hr : irow + n ≤ N) (hc : icol + n ≤ N) (big0 : R → Bool)
    (h0 : ∀ x, big0 x = false → x = 0) (jv : Nat → R) (ji : Nat → Nat) :
    ∃ B, A.extractSubmatrix irow icol n bM big0 jv ji = .ok B ∧ B.M = bM ∧
      B.Represents n (fun i j => a (irow + i) (icol + j)) := by
  obtain ⟨B, e, h1, h⟩ := Csr.exists_of_wpM (Csr.wp_extractSubmatrix (Csr.represents_iff.1 hA) bM hr
    hc big0 jv ji)
  refine ⟨B, e, h1, h.congr fun i j _ _ => ?_⟩
  simp only [Spec.keep]
  by_cases hb : big0 (a (irow + i) (icol + j)) = true
  · rw [if_pos hb]
  · rw [if_neg hb, h0 (a (irow + i) (icol + j)) (by simpa using hb)]

/-- **C28 (partial)**, CSR: assignment into a block without stored entries. -/
theorem C28_csr_assign_partial {N n irow icol : Nat} {A B : Csr R} {a b : Spec.Mat R}
    (hA : A.Represents N a) (hB : B.Represents n b) (hr : irow + n ≤ N) (hc : icol + n ≤ N)
    (hno : ∀ i j, irow ≤ i → i < irow + n → icol ≤ j → j < icol + n → ¬ A.Stored i j) :
    ∃ A', A.assignSubmatrix B irow icol = .ok A' ∧ A'.M = A.M ∧ A'.Represents N (fun i j =>
      if (irow ≤ i ∧ i < irow + n) ∧ (icol ≤ j ∧ j < icol + n) then b (i - irow) (j - icol)
      else a i j) :=
  Csr.exists_of_wpM (Csr.wp_assignSubmatrix (Csr.represents_iff.1 hA) (Csr.represents_iff.1 hB) hr hc
    hno)

/-- **C28 fails for CSR blocks with stored entries**: the old value stays in front. -/
theorem C28_csr_assign_witness :
    ∃ A', exC.assignSubmatrix (Csr.ofRows 1 1 fun _ => [(0, 9)]) 0 0 = .ok A' ∧
      A'.getElement 0 0 = .ok 1 := ⟨_, rfl, by decide⟩

example : ∃ A', (Csr.newZero 3 3).assignSubmatrix exC 1 0 = .ok A' ∧
    A'.getElement 2 0 = .ok 3 ∧ A'.getElement 2 2 = .ok 0 := by
  obtain ⟨A', e, -, h⟩ := C28_csr_assign_partial (C32_csr_zero 3 3) exC_rep (irow := 1) (icol := 0)
    (by omega) (by omega) (by intro i j _ _ _ _; simp [Csr.Stored, Csr.newZero, CsrRow.zero])
  exact ⟨A', e, (h.get 2 0 (by omega) (by omega)).trans (by decide),
    (h.get 2 2 (by omega) (by omega)).trans (by decide)⟩

example : ∃ B, exC.extractSubmatrix 0 1 1 1 (fun x => decide (x ≠ 0)) (fun _ => 0) (fun _ => 0) =
    .ok B ∧ B.getElement 0 0 = .ok 2 := by
  obtain ⟨B, e, -, h⟩ := C28_csr_extract exC_rep 1 (irow := 0) (icol := 1) (n := 1) (by omega)
    (by omega) (fun x => decide (x ≠ 0)) (by simp) (fun _ => 0) (fun _ => 0)
  exact ⟨B, e, (h.get 0 0 (by omega) (by omega)).trans (by decide)⟩

omit [CommRing R] in
/-- **C30 is not available for CSR**: `bml_reorder` is not implemented and says so. -/
theorem C30_csr_not_implemented (A : Csr R) (perm : Arr Nat) : A.reorder perm = .error := rfl

/-- **C33**, CSR: bandwidths. -/
theorem C33_csr_bandwidth {N : Nat} {A : Csr R} {a : Spec.Mat R} (hA : A.Represents N a) :
    (∀ i, i < N → A.rowBandwidth i =
      .ok ((Finset.range N).filter (fun j => A.Stored i j)).card) ∧
    A.bandwidth = .ok ((Finset.range N).sup
      fun i => ((Finset.range N).filter (fun j => A.Stored i j)).card) := by
  have hR := Csr.represents_iff.1 hA
  refine ⟨fun i hi => Csr.rowBandwidth_eq hR hi, ?_⟩
  obtain ⟨m, e, h⟩ := Res.wp_exists (Csr.wp_bandwidth (E := False) hR)
  have hrow : ∀ i, i < N → ((Finset.range N).filter (fun j => A.Stored i j)).card =
      (A.row i).length := by
    intro i hi
    have h1 := Csr.rowBandwidth_eq hR hi
    unfold Csr.rowBandwidth at h1
    rw [hR.read hi, Res.bind_ok, Res.pure_eq] at h1
    rw [← Res.ok.inj h1]
    unfold Csr.row
    rw [CsrRow.list_length]
  rw [e]
  congr 1
  apply le_antisymm
  · rcases h.2 with rfl | ⟨i, hi, rfl⟩
    · exact Nat.zero_le _
    · rw [← hrow i hi]
      exact Finset.le_sup (f := fun i => ((Finset.range N).filter (fun j => A.Stored i j)).card)
        (Finset.mem_range.2 hi)
  · apply Finset.sup_le
    intro i hi
    have hi' := Finset.mem_range.1 hi
    rw [hrow i hi']
    exact h.1 i hi'

/-- **C33**, CSR: the sparsity.  Missing: larger matrices (`C33_csr_sparsity_overflow`). -/
theorem C33_csr_sparsity_partial {N : Nat} {A : Csr R} {a : Spec.Mat R} (hA : A.Represents N a)
    (hN : N ≤ 46340) (big : R → Bool) (h0 : big 0 = false) :
    (A.sparsity big : Res ℚ) = .ok (1 - ((∑ i ∈ Finset.range N, Spec.rowCount big N a i : Nat) : ℚ) /
      ((N * N : Nat) : ℚ)) := by
  unfold Csr.sparsity
  rw [Csr.countAbove_eq (Csr.represents_iff.1 hA) big h0, Res.bind_ok, hA.dim, sparsityOf_ok hN]

/-- **C33 fails** for every CSR matrix with more than 46340 rows. -/
theorem C33_csr_sparsity_overflow {N : Nat} {A : Csr R} {a : Spec.Mat R} (hA : A.Represents N a)
    (hN : 46341 ≤ N) (big : R → Bool) (h0 : big 0 = false) : (A.sparsity big : Res ℚ) = .ub := by
  unfold Csr.sparsity
  rw [Csr.countAbove_eq (Csr.represents_iff.1 hA) big h0, Res.bind_ok, hA.dim, sparsityOf_ub hN]

/-- `bml_get_M` of a CSR matrix is the largest row space, not the `M` of the constructor. -/
theorem C33_csr_get_M_value {N : Nat} {A : Csr R} {a : Spec.Mat R} (hA : A.Represents N a) :
    A.getM = .ok ((Finset.range N).sup fun i => (A.data.get i).alloc) := by
  obtain ⟨m, e, rfl⟩ := Res.wp_exists (Csr.wp_getM (E := False) (Csr.represents_iff.1 hA))
  exact e

/-- A new `3 × 3` matrix with `M = 2` says that its `M` is 10. -/
theorem C33_csr_get_M_witness : (Csr.newZero 3 2 : Csr Int).getM = .ok 10 := by decide

example : exC.rowBandwidth 0 = .ok 2 ∧ exC.bandwidth = .ok 2 :=
  ⟨((C33_csr_bandwidth exC_rep).1 0 (by omega)).trans (by decide),
    (C33_csr_bandwidth exC_rep).2.trans (by decide)⟩

/-! ## C36 -/

/-- **C36**, CSR: the scheduled loops give the same elements and numbers for any two schedules. -/
theorem C36_csr {N : Nat} {A B C : Csr R} {a b c : Spec.Mat R} (hA : A.Represents N a)
    (hB : B.Represents N b) (hC : C.Represents N c) (big : R → Bool) {r r' : Sched}
    (hr : IsSched 0 N r) (hr' : IsSched 0 N r') :
    (∃ X Y x, A.threshold big r = .ok X ∧ A.threshold big r' = .ok Y ∧ X.Represents N x ∧
      Y.Represents N x) ∧
    (∃ X Y x, Csr.multAB A B C big r = .ok X ∧ Csr.multAB A B C big r' = .ok Y ∧
      X.Represents N x ∧ Y.Represents N x) ∧
    (∃ X Y x t, Csr.multX2 A C big r = .ok (X, t) ∧ Csr.multX2 A C big r' = .ok (Y, t) ∧
      X.Represents N x ∧ Y.Represents N x) ∧
    (∃ t, A.trace r = .ok t ∧ A.trace r' = .ok t) ∧
    (∃ t, A.sumSquares r = .ok t ∧ A.sumSquares r' = .ok t) := by
  refine ⟨?_, ?_, ?_, ?_, ?_⟩
  · obtain ⟨X, e, -, h, -⟩ := C11_csr_threshold hA big hr
    obtain ⟨Y, e', -, h', -⟩ := C11_csr_threshold hA big hr'
    exact ⟨X, Y, _, e, e', h, h'⟩
  · obtain ⟨X, e, -, h⟩ := C12_csr_multiply_AB hA hB hC big hr
    obtain ⟨Y, e', -, h'⟩ := C12_csr_multiply_AB hA hB hC big hr'
    exact ⟨X, Y, _, e, e', h, h'⟩
  · obtain ⟨X, e, -, h⟩ := C13_csr_x2 hA hC big hr
    obtain ⟨Y, e', -, h'⟩ := C13_csr_x2 hA hC big hr'
    exact ⟨X, Y, _, _, e, e', h, h'⟩
  · exact ⟨_, C20_csr_trace hA hr, C20_csr_trace hA hr'⟩
  · exact ⟨_, C21_csr_sum_squares hA hr, C21_csr_sum_squares hA hr'⟩

end Bml.Props
