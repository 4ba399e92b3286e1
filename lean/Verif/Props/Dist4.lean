import Verif.Dist.AddNorm
import Verif.Props.Dist3

/-!
# C43: `bml_add_norm` of distributed matrices
-/

namespace Bml.Props

open Bml Bml.Dist

variable {R : Type} [CommRing R] {τ : Type} {p n m : Nat} {a b : Spec.Mat R}

/-- All ranks return: their tiles make up the matrix `c`, and each has the same number `t`. -/
def AddNormGives (Rep : τ → Spec.Mat R → Prop) (p n : Nat) (f : Nat → Res (τ × R)) (c : Spec.Mat R)
    (t : R) : Prop :=
  ∃ D', (∀ r, r < p * p → f r = .ok (D' r, t)) ∧ Holds Rep p n D' c

theorem addNorm_of {f : Nat → τ → τ → Res (τ × R)} {RepC Rep Rep' : τ → Spec.Mat R → Prop}
    {g h : Spec.Mat R → Spec.Mat R → Spec.Mat R} (hp : 0 < p)
    (hf : ∀ r {A B x y}, RepC A x → Rep B y → ∃ A', f r A B = .ok (A', Spec.total n n (g x y)) ∧
      Rep' A' (h x y))
    (hg : ∀ i j x y, tile n i j (g x y) = g (tile n i j x) (tile n i j y))
    (hh : ∀ i j x y, tile n i j (h x y) = h (tile n i j x) (tile n i j y)) {D E : Nat → τ}
    (hA : Holds RepC p n D a) (hB : Holds Rep p n E b) :
    AddNormGives Rep' p n (addNorm f p D E) (h a b) (Spec.total (p * n) (p * n) (g a b)) := by
  have h1 : sumReduce (p * p) (fun r => do
      let s ← f r (D r) (E r)
      pure s.2) = .ok (Spec.total (p * n) (p * n) (g a b)) :=
    sumPairs_eq (f := fun r A B => do
      let s ← f r A B
      pure s.2) (g := g) (Rep := RepC) (Rep' := Rep) (fun r A B x y g1 g2 => by
        obtain ⟨A', e, -⟩ := hf r g1 g2
        show (f r A B >>= fun s => pure s.2) = _
        rw [e]
        rfl) hg hA hB
  obtain ⟨D', h2, h3⟩ := calls_of (f := fun r => f r (D r) (E r) >>= fun s => pure s.1) (Rep := Rep')
    (a := h a b) (n := n) hp (fun i j hi hj => by
      obtain ⟨A', e, hr⟩ := hf (rankOf p i j) (hA i j hi hj) (hB i j hi hj)
      refine ⟨A', ?_, ?_⟩
      · rw [e]; rfl
      · rw [hh]; exact hr)
  refine ⟨D', fun r hr => ?_, h3⟩
  unfold addNorm
  have h4 : (f r (D r) (E r) >>= fun s => pure s.1) = .ok (D' r) := h2 r hr
  cases e : f r (D r) (E r) with
  | ok s =>
    rw [e, Res.bind_ok] at h4
    have h5 : s.1 = D' r := Res.ok.inj h4
    rw [Res.bind_ok, h1, Res.bind_ok, h5]
    rfl
  | error => rw [e] at h4; cases h4
  | ub => rw [e] at h4; cases h4

/-- **C43**, `bml_add_norm`, dense: `alpha A + beta B` without threshold (C08), and the sum of the
squares of the elements of `B`. -/
theorem C43_add_norm_dense (hp : 0 < p) {D E : Nat → Dense R}
    (hA : Holds (fun A a => A.Represents n a) p n D a) (hB : Holds (fun A a => A.Represents n a) p n E b)
    (α β : R) {sc : Nat → Sched} (hsc : ∀ r, IsSched (0 * n) (n * n) (sc r)) :
    AddNormGives (fun A a => A.Represents n a) p n
      (addNorm (fun r A B => Dense.addNorm A B α β 0 n (sc r)) p D E)
      (fun i j => α * a i j + β * b i j)
      (Spec.total (p * n) (p * n) fun i j => b i j * b i j) :=
  addNorm_of (f := fun r A B => Dense.addNorm A B α β 0 n (sc r))
    (g := fun _ y i j => y i j * y i j) (h := fun x y i j => α * x i j + β * y i j) hp
    (fun r _ _ _ _ h1 h2 => by
      obtain ⟨⟨A', t⟩, e, h3, h4⟩ := C08_dense_add_norm_value h1 h2 α β (hsc r)
      simp only at h3 h4
      subst h4
      exact ⟨A', e, h3⟩) (fun _ _ _ _ => rfl) (fun _ _ _ _ => rfl) hA hB

/-- **C43**, `bml_add_norm`, ELLPACK with room for full rows in the tiles: `alpha A + beta B`, each
element through the threshold, and the sum of the squares of the elements of `A - B`, which for the
dense format is another number (C08). -/
theorem C43_add_norm_ellpack_partial [DecidableEq R] (hp : 0 < p) (hm : n ≤ m) {D E : Nat → Ell R}
    (hA : Holds (fun A a => A.Represents n a ∧ A.M = m) p n D a)
    (hB : Holds (fun A a => A.Represents n a) p n E b) (α β : R) (big : R → Bool) {sc : Nat → Sched}
    (hsc : ∀ r, IsSched 0 n (sc r)) :
    AddNormGives (fun A a => A.Represents n a ∧ A.M = m) p n
      (addNorm (fun r A B => Ell.addNorm A B α β big (sc r)) p D E) (Spec.add big α β a b)
      (Spec.total (p * n) (p * n) fun i j => (a i j - b i j) * (a i j - b i j)) :=
  addNorm_of (f := fun r A B => Ell.addNorm A B α β big (sc r))
    (g := fun x y i j => (x i j - y i j) * (x i j - y i j)) (h := Spec.add big α β) hp
    (fun r A B x y h1 h2 => by
      obtain ⟨A', e, h3, h4⟩ := C08_add_norm h1.1 h2 α β big (hsc r) le_rfl (fun i _ hi => by
        rw [h1.2]
        exact ((Finset.card_filter_le _ _).trans (by rw [Finset.card_range])).trans hm)
      refine ⟨A', ?_, h4.congr (Spec.onRows_all n _ _), h3.trans h1.2⟩
      rw [e, ← Finset.range_eq_Ico]
      rfl) (fun _ _ _ _ => rfl) (fun _ _ _ _ => rfl) hA hB

/-- **C43 fails** for `bml_add_norm` of CSR matrices: it is not implemented, every rank stops. -/
theorem C43_add_norm_csr (D E : Nat → Csr R) (p r : Nat) :
    addNorm (fun _ A B => Csr.addNorm A B) p D E r = .error := rfl

example : AddNormGives (fun A a => A.Represents 2 a) 2 2
    (addNorm (fun _ A B => Dense.addNorm A B 2 3 0 2 (seqSched 0 4)) 2 (denseTiles 2 2 exG)
      (denseTiles 2 2 exG)) (fun i j => 2 * exG i j + 3 * exG i j)
    (Spec.total 4 4 fun i j => exG i j * exG i j) :=
  C43_add_norm_dense (by decide) (denseTiles_holds 2 2 exG) (denseTiles_holds 2 2 exG) 2 3
    (fun _ => isSched_seq 0 4)

example : AddNormGives (fun A a => A.Represents 3 a ∧ A.M = 4) 2 3
    (addNorm (fun _ A B => Ell.addNorm A B 2 (-3) exBig exSched) 2 (fun _ => exA) (fun _ => exA))
    (Spec.add exBig 2 (-3) exE exE)
    (Spec.total 6 6 fun i j => (exE i j - exE i j) * (exE i j - exE i j)) :=
  C43_add_norm_ellpack_partial (by decide) (by decide) exE_holds
    (fun i j hi hj => (exE_holds i j hi hj).1) 2 (-3) exBig (fun _ => exSched_ok)

end Bml.Props
