import Verif.Ellblock.Random
import Verif.Props.Ellblock

/-!
# C52: the random constructor of block-ELLPACK
-/

namespace Bml
namespace Props

/-- **C52**, `bml_random_matrix`.  For all `N`, `M ≤ N`, every sequence of results of `rand()` and every
conversion of them to elements: the call ends, the matrix has the size asked for and is well formed, every
element is zero or one of the drawn values, and every element of the diagonal is a drawn value. -/
theorem C52_random {R : Type} [CommRing R] {g : EllB.Glob} {N M : Nat} (hM : M ≤ N) (hg : g.For N M)
    (rnd : Nat → Nat) (toR : Nat → R) :
    ∃ g' A, EllB.randomMatrix g N M rnd toR = .ok (g', A) ∧ A.N = N ∧ A.M = M ∧ A.Clean ∧ A.WF ∧
      (∀ i j, i < N → j < N → ∃ x, A.getElement i j = .ok x ∧ (x = 0 ∨ ∃ n, x = toR (rnd n))) ∧
      ∀ i, i < N → ∃ n, A.getElement i i = .ok (toR (rnd n)) := by
  obtain ⟨⟨g', A⟩, e, L, b, a, -, -, h1, h2, h3, h4, h5⟩ :=
    Res.wp_exists (EllB.wp_randomMatrix (E := False) hg hM rnd toR)
  refine ⟨g', A, e, h1.dim, h3.M, h2, h1.wf, fun i j hi hj => ⟨a i j, h1.get hi hj, ?_⟩, fun i hi => ?_⟩
  · obtain ⟨ib, ii, k1, k2, rfl⟩ := h1.surj hi
    obtain ⟨jb, jj, k3, k4, rfl⟩ := h1.surj hj
    by_cases hm : jb ∈ (L ib).map Prod.fst
    · exact Or.inr (h4 ib jb ii jj k1 hm k2 k4)
    · left
      rw [← h1.den ib jb ii jj k1 k3 k2 k4, EllB.val_of_not_mem hm]
  · rw [h1.get hi hi]
    obtain ⟨ib, ii, k1, k2, rfl⟩ := h1.surj hi
    obtain ⟨n, hn⟩ := h4 ib ib ii ii k1 (h5 ib k1) k2 k2
    exact ⟨n, by rw [hn]⟩

/-- The first call: no block sizes are in force yet. -/
example : ∃ g' A, EllB.randomMatrix (R := Int) EllB.Glob.init 6 2 (fun n => n) (fun n => n + 1) = .ok (g', A) ∧
    A.WF ∧ ∃ n, A.getElement 5 5 = .ok (((n : Nat) : Int) + 1) := by
  obtain ⟨g', A, e, -, -, -, h, -, hd⟩ := C52_random (R := Int) (g := EllB.Glob.init) (N := 6) (M := 2)
    (by decide) (Or.inl ⟨rfl, by decide⟩) (fun n => n) (fun n => n + 1)
  exact ⟨g', A, e, h, hd 5 (by decide)⟩

end Props
end Bml
