import Verif.Csr.Ops4
import Verif.Ellpack.OfRows

/-!
# CSR matrices with given rows, and what element writes do to the set of stored entries
-/

namespace Bml

namespace CsrRow

variable {R : Type} [CommRing R]

/-- A row object with the entries `L` and room for `alloc` entries (at least `INIT_ROW_SPACE`, and
at least the entries). -/
def ofList (alloc : Nat) (L : SRow R) : CsrRow R :=
  ⟨L.length, ⟨max (rowSpace alloc) L.length, fun k => (L.getD k (0, 0)).2⟩,
    ⟨max (rowSpace alloc) L.length, fun k => (L.getD k (0, 0)).1⟩, max (rowSpace alloc) L.length⟩

theorem ofList_is (alloc : Nat) (L : SRow R) : (ofList alloc L).Is L := by
  refine ⟨⟨rfl, rfl, le_max_right _ _, le_trans (rowSpace_ge alloc).2 (le_max_left _ _)⟩, ?_⟩
  unfold list ofList
  refine List.ext_getElem (by simp) ?_
  intro k h1 h2
  simp [h2]

end CsrRow

namespace Csr

variable {R : Type} [CommRing R] {E : Prop}

/-- The matrix with the given rows. -/
def ofRows (N M : Nat) (rows : Nat → SRow R) : Csr R :=
  ⟨N, M, ⟨N, fun i => CsrRow.ofList M (rows i)⟩⟩

theorem ofRows_row (N M : Nat) (rows : Nat → SRow R) (i : Nat) :
    (ofRows N M rows).row i = rows i := (CsrRow.ofList_is M (rows i)).2

theorem ofRows_rep {N M : Nat} {rows : Nat → SRow R} (h : ∀ i, i < N → SRow.Good N (rows i)) :
    (ofRows N M rows).Represents N (fun i j => SRow.den (rows i) j) :=
  represents_iff.2 ⟨rfl, rfl, fun i hi =>
    (CsrRow.ofList_is M (rows i)).holds (h i hi) fun _ _ => rfl⟩

theorem exists_of_wp {r : Res (Csr R)} {N : Nat} {a : Spec.Mat R}
    (h : r.wp False (fun A => A.Rep N a)) : ∃ A, r = .ok A ∧ A.Represents N a := by
  obtain ⟨A, e, h⟩ := Res.wp_exists h
  exact ⟨A, e, represents_iff.2 h⟩

theorem exists_of_wpM {r : Res (Csr R)} {N M : Nat} {a : Spec.Mat R}
    (h : r.wp False (fun A => A.M = M ∧ A.Rep N a)) :
    ∃ A, r = .ok A ∧ A.M = M ∧ A.Represents N a := by
  obtain ⟨A, e, h1, h2⟩ := Res.wp_exists h
  exact ⟨A, e, h1, represents_iff.2 h2⟩

theorem Represents.congr {A : Csr R} {N : Nat} {a b : Spec.Mat R} (h : A.Represents N a)
    (hab : Spec.Eq N a b) : A.Represents N b :=
  represents_iff.2 ((represents_iff.1 h).congr hab)

/-- After `bml_set_element` the position is stored and nothing else about the stored positions
changes. -/
theorem stored_setElement {A : Csr R} {N i j : Nat} {a : Spec.Mat R} (hA : A.Rep N a) (hi : i < N)
    (v : R) :
    (A.setElement i j v).wp E (fun A' => ∀ i' j', A'.Stored i' j' ↔
      A.Stored i' j' ∨ (i' = i ∧ j' = j)) := by
  unfold setElement
  refine Res.wp_mono (wp_onRow (by rw [hA.size]; exact hi) (CsrRow.wp_set (hA.is hi) j v)) ?_
  rintro A' ⟨-, -, -, h, h5⟩ i' j'
  by_cases he : i' = i
  · subst he
    simp only [stored_iff, true_and]
    rcases h with ⟨-, h⟩ | ⟨L1, w, L2, e, -, h⟩
    · have : A'.row i' = A.row i' ++ [(j, v)] := h.2
      rw [this]; simp
    · have e' : A'.row i' = L1 ++ (j, v) :: L2 := h.2
      rw [e', e]
      simp only [List.map_append, List.map_cons, List.mem_append, List.mem_cons]
      tauto
  · simp only [stored_iff, he, false_and, or_false]
    unfold row
    rw [h5 i' he]

theorem stored_setElementNew {A : Csr R} {N i j : Nat} {a : Spec.Mat R} (hA : A.Rep N a)
    (hi : i < N) (v : R) :
    (A.setElementNew i j v).wp E (fun A' => ∀ i' j', A'.Stored i' j' ↔
      A.Stored i' j' ∨ (i' = i ∧ j' = j)) := by
  unfold setElementNew
  refine Res.wp_mono (wp_onRow (by rw [hA.size]; exact hi) (CsrRow.wp_setNew (hA.is hi) j v)) ?_
  rintro A' ⟨-, -, -, h, h5⟩ i' j'
  by_cases he : i' = i
  · subst he
    simp only [stored_iff, true_and]
    have : A'.row i' = A.row i' ++ [(j, v)] := h.1.2
    rw [this]; simp
  · simp only [stored_iff, he, false_and, or_false]
    unfold row
    rw [h5 i' he]

end Csr

end Bml
