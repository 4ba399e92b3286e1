import Verif.Race.Ellpack
import Verif.Props.EllOps

/-!
# C77: parallel loops, access by access
-/

namespace Bml
namespace Props

open Race

variable {R : Type} [CommRing R]

theorem forList_unit {τ : Type} {step : Nat → τ → Res τ} {sc : Sched} {s s' : τ} {x x' : Nat → Unit}
    (h : (forList sc (s, x) fun ti (st : τ × (Nat → Unit)) => do
      let r ← (do let b ← step ti.2 st.1; pure (b, ()) : Res (τ × Unit))
      pure (r.1, upd st.2 ti.1 r.2)) = .ok (s', x')) :
    (forList sc s fun ti t => step ti.2 t) = .ok s' := by
  induction sc generalizing s x with
  | nil =>
    cases h
    rfl
  | cons ti sc ih =>
    obtain ⟨⟨b, y⟩, h1, h2⟩ := ok_bind h
    obtain ⟨⟨c, z⟩, h3, h4⟩ := ok_bind h1
    obtain ⟨d, h5, h6⟩ := ok_bind h3
    cases h6
    cases h4
    show Res.bind (step ti.2 s) _ = _
    rw [show step ti.2 s = .ok _ from h5]
    exact ih h2

/-- Matrices for the examples: `exA`, `exB`, and an empty one. -/
def exMats : Mem (Race.ty Int) := memOf fun x => if x = 0 then exA else if x = 1 then exB else Ell.noinit 3 4 (fun p => (p : Int)) fun p => p

/-- Their sizes, and three locks. -/
def exSizes : Sizes := ⟨3, fun _ => 4, 3⟩

theorem exMats_A : (mat exSizes exMats 0).Represents 3 exa := exA_rep
theorem exMats_B : (mat exSizes exMats 1).Represents 3 exb := exB_rep

/-- **C77**, `bml_threshold` of an ELLPACK matrix: however the rows are given to threads and however the
threads' loads and stores are interleaved, there is no data race and no access outside the arrays, the
loop ends, and the matrix is then the thresholded one; no other matrix has changed. -/
theorem C77_threshold {sh : Sizes} {m0 : Mem (Race.ty R)} {x : Nat} {a : Spec.Mat R} (big : R → Bool)
    (hA : (mat sh m0 x).Represents sh.N a) {sc : Sched} (hsc : IsSched 0 sh.N sc) :
    (thresholdTeam sh m0 x big sc).Safe sh.inb fun m =>
      (mat sh m x).Represents sh.N (Spec.threshold big a) ∧ ∀ y, y ≠ x → mat sh m y = mat sh m0 y := by
  have hR := Ell.represents_iff.1 hA
  obtain ⟨A', eA, -, hA'⟩ := C11_threshold hA big hsc (le_refl _)
  refine Team.Safe.mono (Team.reduction (own := fun i => Row sh x i) (ro := fun _ => False)
    (Clean := fun _ => True) (view := fun m => mat sh m x)
    (step := fun i A _ => do let b ← Ell.thresholdRow big i A; pure (b, ()))
    (fun i j l hij => Row.disjoint (.inr hij) l) (fun _ _ h => h.elim)
    (fun i l h => h.elim Row.inb False.elim) hsc.nodup trivial ?_) ?_
  · rintro ⟨t, i⟩ hti - m - hm
    have hi : i < sh.N := ((hsc.mem i).1 (List.mem_map.2 ⟨_, hti, rfl⟩)).2
    have hrow := rowSat_congr hi (hR.rowSat hi) fun l hl => hm l fun j hj => Row.disjoint (.inr (Ne.symm hj)) l hl
    obtain ⟨b, eb, -⟩ := Res.wp_exists (Ell.wp_thresholdRow (E := False) (mat_shape sh m x) hi hrow.1 big)
    refine ⟨(b, ()), by rw [eb]; rfl, ?_⟩
    exact Prog.wp_mono (tr_thresholdRow big hi hrow.1 b eb) fun _ m' h => ⟨trivial, h, rfl⟩
  · rintro m ⟨⟨y, h⟩, hf⟩
    have h := forList_unit h
    have e : mat sh m x = A' := by
      have e2 : Ell.threshold (mat sh m0 x) big sc = .ok (mat sh m x) := h
      rw [eA] at e2
      exact (Res.ok.inj e2).symm
    refine ⟨?_, fun y hy => ?_⟩
    · rw [e]
      exact hA'.congr (Spec.onRows_all _ _ _)
    · exact mat_congr fun l hl => hf l fun i hil => hl hy i hil

example : (thresholdTeam exSizes exMats 0 exBig exSched).Safe exSizes.inb fun m =>
    (mat exSizes m 0).Represents 3 (Spec.threshold exBig exa) ∧
      ∀ y, y ≠ 0 → mat exSizes m y = mat exSizes exMats y :=
  C77_threshold exBig (sh := exSizes) (m0 := exMats) exMats_A exSched_ok

/-- **C77**, `bml_add` of ELLPACK matrices. -/
theorem C77_add [DecidableEq R] {sh : Sizes} {m0 : Mem (Race.ty R)} {x y : Nat} {a b : Spec.Mat R}
    (hxy : y ≠ x) (α β : R) (big : R → Bool) (hA : (mat sh m0 x).Represents sh.N a)
    (hB : (mat sh m0 y).Represents sh.N b) {sc : Sched} (hsc : IsSched 0 sh.N sc)
    (hfit : ∀ i, i < sh.N → Spec.rowCount big sh.N (fun i j => α * a i j + β * b i j) i ≤ sh.M x) :
    (addTeam sh m0 x y α β big sc).Safe sh.inb fun m =>
      (mat sh m x).Represents sh.N (Spec.add big α β a b) ∧ ∀ y, y ≠ x → mat sh m y = mat sh m0 y := by
  have hRA := Ell.represents_iff.1 hA
  have hRB := Ell.represents_iff.1 hB
  obtain ⟨A', eA, -, hA'⟩ := C08_add_all hA hB α β big hsc hfit
  refine Team.Safe.mono (Team.reduction (own := fun i => Row sh x i)
    (ro := fun l => ∃ i, Row sh y i l)
    (Clean := fun s => s.Clean sh.N) (view := fun m => mat sh m x)
    (step := fun i A s => Ell.addRow (mat sh m0 y) α β big i A s)
    (fun i j l hij => Row.disjoint (.inr hij) l) (fun i l ⟨k, hk⟩ => Row.disjoint (.inl hxy) l hk)
    (fun i l h => h.elim Row.inb fun ⟨k, hk⟩ => hk.inb) hsc.nodup (Scr.clean_clearScr _) ?_) ?_
  · rintro ⟨t, i⟩ hti s m hs hm
    have hi : i < sh.N := ((hsc.mem i).1 (List.mem_map.2 ⟨_, hti, rfl⟩)).2
    have hrow := rowSat_congr hi (hRA.rowSat hi) fun l hl => hm l fun j hj => Row.disjoint (.inr (Ne.symm hj)) l hl
    have hBm : mat sh m y = mat sh m0 y :=
      mat_congr fun l hl => hm l fun j _ h => hl hxy j h
    obtain ⟨b', eb, -, hfr, hb1, hb2⟩ := Res.wp_exists (Ell.wp_addRow (E := False) (mat_shape sh m x) rfl hi
      (mat_shape sh m0 y) rfl hrow (hRB.rowSat hi) hs α β big (hfit i hi))
    refine ⟨b', eb, ?_⟩
    refine Prog.wp_mono (tr_addRow (y := y) (ro := fun l => ∃ i, Row sh y i l) hi (fun l h => .inr ⟨i, h⟩)
      hrow.1 ?_ b' ?_ ?_) fun s' m' h => ⟨?_, h.1, h.2⟩
    · have : (mat sh m y).nnz.get i ≤ sh.M y := by
        rw [hBm]
        exact (hRB.rowSat hi).1
      exact this
    · rw [hBm]
      exact eb
    · rw [← show b'.1.M = sh.M x from hfr.M]
      exact hb1.1
    · rw [h.2]
      exact hb2
  · rintro m ⟨⟨z, h⟩, hf⟩
    have e : mat sh m x = A' := by
      have e2 : Ell.add (mat sh m0 x) (mat sh m0 y) α β big sc = .ok (mat sh m x) := by
        unfold Ell.add
        show Res.bind _ _ = _
        rw [show Ell.clearScr (mat sh m0 x).N = Ell.clearScr sh.N from rfl]
        erw [h]
        rfl
      rw [eA] at e2
      exact (Res.ok.inj e2).symm
    refine ⟨?_, fun y hy => ?_⟩
    · rw [e]
      exact hA'
    · exact mat_congr fun l hl => hf l fun i hil => hl hy i hil

example : (addTeam exSizes exMats 0 1 2 (-3) exBig exSched).Safe exSizes.inb fun m =>
    (mat exSizes m 0).Represents 3 (Spec.add exBig 2 (-3) exa exb) ∧
      ∀ y, y ≠ 0 → mat exSizes m y = mat exSizes exMats y :=
  C77_add (sh := exSizes) (m0 := exMats) (by decide) 2 (-3) exBig exMats_A exMats_B exSched_ok
    (fun i _ => le_trans (Finset.card_le_card (Finset.filter_subset _ _)) (by decide))

/-- **C77**, `bml_add` of an ELLPACK matrix to itself. -/
theorem C77_add_self [DecidableEq R] {sh : Sizes} {m0 : Mem (Race.ty R)} {x : Nat} {a : Spec.Mat R}
    (α β : R) (big : R → Bool) (hA : (mat sh m0 x).Represents sh.N a) {sc : Sched}
    (hsc : IsSched 0 sh.N sc)
    (hfit : ∀ i, i < sh.N → Spec.rowCount big sh.N (fun i j => α * a i j + β * a i j) i ≤ sh.M x) :
    (addTeam sh m0 x x α β big sc).Safe sh.inb fun m =>
      (mat sh m x).Represents sh.N (Spec.add big α β a a) ∧ ∀ y, y ≠ x → mat sh m y = mat sh m0 y := by
  have hRA := Ell.represents_iff.1 hA
  obtain ⟨A', eA, -, hA'⟩ := C08_add_self hA α β big hsc (le_refl _) fun i _ h => hfit i h
  refine Team.Safe.mono (Team.reduction (own := fun i => Row sh x i) (ro := fun _ => False)
    (Clean := fun s => s.Clean sh.N) (view := fun m => mat sh m x)
    (step := fun i A s => Ell.addRow A α β big i A s)
    (fun i j l hij => Row.disjoint (.inr hij) l) (fun _ _ h => h.elim)
    (fun i l h => h.elim Row.inb False.elim) hsc.nodup (Scr.clean_clearScr _) ?_) ?_
  · rintro ⟨t, i⟩ hti s m hs hm
    have hi : i < sh.N := ((hsc.mem i).1 (List.mem_map.2 ⟨_, hti, rfl⟩)).2
    have hrow := rowSat_congr hi (hRA.rowSat hi) fun l hl => hm l fun j hj => Row.disjoint (.inr (Ne.symm hj)) l hl
    obtain ⟨b', eb, -, hfr, hb1, hb2⟩ := Res.wp_exists (Ell.wp_addRow (E := False) (mat_shape sh m x) rfl hi
      (mat_shape sh m x) rfl hrow hrow hs α β big (hfit i hi))
    refine ⟨b', eb, ?_⟩
    refine Prog.wp_mono (tr_addRow (y := x) (ro := fun _ => False) hi (fun l h => .inl h)
      hrow.1 hrow.1 b' eb ?_) fun s' m' h => ⟨?_, h.1, h.2⟩
    · rw [← show b'.1.M = sh.M x from hfr.M]
      exact hb1.1
    · rw [h.2]
      exact hb2
  · rintro m ⟨⟨z, h⟩, hf⟩
    have e : mat sh m x = A' := by
      have e2 : Ell.addSelf (mat sh m0 x) α β big sc = .ok (mat sh m x) := by
        unfold Ell.addSelf
        show Res.bind _ _ = _
        rw [show Ell.clearScr (mat sh m0 x).N = Ell.clearScr sh.N from rfl]
        erw [h]
        rfl
      rw [eA] at e2
      exact (Res.ok.inj e2).symm
    refine ⟨?_, fun y hy => ?_⟩
    · rw [e]
      exact hA'.congr (Spec.onRows_all _ _ _)
    · exact mat_congr fun l hl => hf l fun i hil => hl hy i hil

example : (addTeam exSizes exMats 1 1 2 (-3) exBig exSched).Safe exSizes.inb fun m =>
    (mat exSizes m 1).Represents 3 (Spec.add exBig 2 (-3) exb exb) ∧
      ∀ y, y ≠ 1 → mat exSizes m y = mat exSizes exMats y :=
  C77_add_self (sh := exSizes) (m0 := exMats) 2 (-3) exBig exMats_B exSched_ok
    (fun i _ => le_trans (Finset.card_le_card (Finset.filter_subset _ _)) (by decide))

/-- **C77**, the product `C := A B` of ELLPACK matrices, `C` different from `A` and `B`.  `A` and `B`
may be the same matrix. -/
theorem C77_multiply [DecidableEq R] {sh : Sizes} {m0 : Mem (Race.ty R)} {x y z : Nat}
    {a b c : Spec.Mat R} (hxz : x ≠ z) (hyz : y ≠ z) (big : R → Bool)
    (hA : (mat sh m0 x).Represents sh.N a) (hB : (mat sh m0 y).Represents sh.N b)
    (hC : (mat sh m0 z).Represents sh.N c) {sc : Sched} (hsc : IsSched 0 sh.N sc)
    (hfit : ∀ i, i < sh.N → Ell.productFill (mat sh m0 x) (mat sh m0 y) sh.N i ≤ sh.M z) :
    (multABTeam sh m0 x y z big sc).Safe sh.inb fun m =>
      (mat sh m z).Represents sh.N (Spec.keepOff big (Spec.mul sh.N a b)) ∧
        ∀ w, w ≠ z → mat sh m w = mat sh m0 w := by
  have hRA := Ell.represents_iff.1 hA
  have hRB := Ell.represents_iff.1 hB
  obtain ⟨C', eC, -, hC'⟩ := C12_multiply_AB_ok hA hB hC big hsc hfit
  refine Team.Safe.mono (Team.reduction (own := fun i => Row sh z i)
    (ro := fun l => ∃ i, Row sh x i l ∨ Row sh y i l)
    (Clean := fun s => s.Clean sh.N) (view := fun m => mat sh m z)
    (step := fun i C s => Ell.multABRow (mat sh m0 x) (mat sh m0 y) big i C s)
    (fun i j l hij => Row.disjoint (.inr hij) l)
    (fun i l ⟨k, hk⟩ => hk.elim (Row.disjoint (.inl hxz) l) (Row.disjoint (.inl hyz) l))
    (fun i l h => h.elim Row.inb fun ⟨k, hk⟩ => hk.elim Row.inb Row.inb) hsc.nodup
    (Scr.clean_clearScr _) ?_) ?_
  · rintro ⟨t, i⟩ hti s m hs hm
    have hi : i < sh.N := ((hsc.mem i).1 (List.mem_map.2 ⟨_, hti, rfl⟩)).2
    have hAm : mat sh m x = mat sh m0 x := mat_congr fun l hl => hm l fun j _ h => hl hxz j h
    have hBm : mat sh m y = mat sh m0 y := mat_congr fun l hl => hm l fun j _ h => hl hyz j h
    have hR := hRA.rowSat hi
    rcases Res.wp_elim (Ell.wp_multABRow hRA hRB (mat_shape sh m z) rfl hi hs big) with
      ⟨b', eb, -, hfr, hb1, hb2⟩ | ⟨-, hE⟩
    · refine ⟨b', eb, ?_⟩
      refine Prog.wp_mono (tr_multABRow (ro := fun l => ∃ i, Row sh x i l ∨ Row sh y i l) hi
        (fun l h => .inr ⟨i, .inl h⟩) (fun k _ l h => .inr ⟨k, .inr h⟩) ?_ ?_ ?_ b' ?_ ?_)
        fun s' m' h => ⟨?_, h.1, h.2⟩
      · have : (mat sh m x).nnz.get i ≤ sh.M x := by
          rw [hAm]
          exact hR.1
        exact this
      · intro k hk
        have : (mat sh m y).nnz.get k ≤ sh.M y := by
          rw [hBm]
          exact (hRB.rowSat hk).1
        exact this
      · have : ∀ p < (mat sh m x).nnz.get i, (mat sh m x).idx.get (i * sh.M x + p) < sh.N := by
          rw [hAm]
          intro p hp
          exact hR.2.1.2 ((mat sh m0 x).idx.get (i * sh.M x + p), (mat sh m0 x).val.get (i * sh.M x + p))
            (List.mem_map.2 ⟨p, List.mem_range.2 hp, rfl⟩)
        exact this
      · rw [hAm, hBm]
        exact eb
      · rw [← show b'.1.M = sh.M z from hfr.M]
        exact hb1.1
      · rw [h.2]
        exact hb2
    · rw [Ell.symCount_eq hRA hi] at hE
      exact absurd (hfit i hi) (Nat.not_le.2 hE)
  · rintro m ⟨⟨w, h⟩, hf⟩
    have e : mat sh m z = C' := by
      have e2 : Ell.multAB (mat sh m0 x) (mat sh m0 y) (mat sh m0 z) big sc = .ok (mat sh m z) := by
        unfold Ell.multAB
        show Res.bind _ _ = _
        rw [show Ell.clearScr (mat sh m0 z).N = Ell.clearScr sh.N from rfl]
        erw [h]
        rfl
      rw [eC] at e2
      exact (Res.ok.inj e2).symm
    refine ⟨?_, fun y hy => ?_⟩
    · rw [e]
      exact hC'
    · exact mat_congr fun l hl => hf l fun i hil => hl hy i hil

theorem exMats_empty : (mat exSizes exMats 2).Represents 3 fun _ _ => 0 := by
  refine Ell.represents_iff.2 ⟨⟨rfl, rfl, rfl⟩, rfl, fun i _ => Nat.zero_le _, fun i _ => ?_, fun i j _ _ => ?_⟩
  · exact SRow.good_nil 3
  · rfl

example : (multABTeam exSizes exMats 0 1 2 exBig exSched).Safe exSizes.inb fun m =>
    (mat exSizes m 2).Represents 3 (Spec.keepOff exBig (Spec.mul 3 exa exb)) ∧
      ∀ w, w ≠ 2 → mat exSizes m w = mat exSizes exMats w :=
  C77_multiply (sh := exSizes) (m0 := exMats) (by decide) (by decide) exBig exMats_A exMats_B exMats_empty
    exSched_ok (by decide)

end Props
end Bml
