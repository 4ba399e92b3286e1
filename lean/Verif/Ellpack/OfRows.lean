import Verif.Ellpack.Access

/-!
# Concrete ELLPACK matrices, for witnesses
-/

namespace Bml

instance {R : Type} (N : Nat) (L : SRow R) : Decidable (SRow.Good N L) := by
  unfold SRow.Good; infer_instance

namespace Ell

variable {R : Type} [CommRing R]

/-- The ELLPACK matrix whose row `i` holds the entries `L i`. -/
def ofRows (N M : Nat) (L : Nat → SRow R) : Ell R :=
  ⟨N, M, ⟨N * M, fun q => ((L (q / M))[q % M]?).elim 0 Prod.snd⟩,
    ⟨N * M, fun q => ((L (q / M))[q % M]?).elim 0 Prod.fst⟩, ⟨N, fun i => (L i).length⟩⟩

theorem ofRows_row {N M : Nat} {L : Nat → SRow R} {i : Nat} (h : (L i).length ≤ M) :
    (ofRows N M L).row i = L i := by
  apply List.ext_getElem
  · simp [ofRows]
  · intro k hk1 hk2
    have hkM : k < M := by omega
    have h1 : (i * M + k) / M = i := by
      rw [Nat.add_comm, Nat.add_mul_div_right _ _ (by omega), Nat.div_eq_of_lt hkM]; omega
    have h2 : (i * M + k) % M = k := by
      rw [Nat.add_comm, Nat.add_mul_mod_self_right, Nat.mod_eq_of_lt hkM]
    simp only [row, rowPre, ofRows, List.getElem_map, List.getElem_range, h1, h2]
    rw [List.getElem?_eq_getElem hk2]
    rfl

theorem ofRows_rep {N M : Nat} {L : Nat → SRow R}
    (h : ∀ i, i < N → (L i).length ≤ M ∧ SRow.Good N (L i)) :
    (ofRows N M L).Represents N (fun i j => (L i).den j) := by
  rw [represents_iff]
  refine ⟨⟨rfl, rfl, rfl⟩, rfl, fun i hi => (h i hi).1, fun i hi => ?_, fun i j hi _ => ?_⟩
  · rw [ofRows_row (h i hi).1]; exact (h i hi).2
  · rw [ofRows_row (h i hi).1]

end Ell

end Bml
