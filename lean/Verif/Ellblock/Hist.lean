import Verif.Ellblock.Ops6

/-!
# Block-ELLPACK: histories, full rows, when a copy fits
-/

set_option linter.unusedSectionVars false

namespace Bml

/-- Is the outcome an error? -/
def Res.isError {α : Type _} : Res α → Bool
  | .error => true
  | _ => false

theorem Res.eq_error_of_isError {α : Type _} {r : Res α} (h : r.isError = true) : r = .error := by
  cases r <;> simp_all [Res.isError]

namespace EllB

variable {R : Type} {E : Prop}

section
variable [AddCommMonoid R] {A : EllB R} {L : Nat → BRow R} {N : Nat} {a : Spec.Mat R}

/-- The write to a full block row that does not hold the block. -/
theorem Rows.setElement_full (h : A.Rows N L a) {ib jb ii jj : Nat} (hi : ib < A.NB)
    (hj : jb < A.NB) (hii : ii < A.bsize.get ib) (hjj : jj < A.bsize.get jb)
    (hn : jb ∉ (L ib).map Prod.fst) (hfull : (L ib).length = A.MB) (v : R) :
    A.setElement (off A.bsize.get ib + ii) (off A.bsize.get jb + jj) v = .error := by
  unfold setElement
  rw [h.find_eq hi hii, Res.bind_ok]
  simp only
  rw [h.find_eq hj hjj, Res.bind_ok]
  simp only
  rw [h.is.bsize_eq hi, Res.bind_ok, h.is.bsize_eq hj, Res.bind_ok,
    h.is.writeMatching_none hi hn, Res.bind_ok]
  simp only
  rw [if_neg (by simp), h.is.nnzb_eq hi, Res.bind_ok, if_pos hfull]

/-- All blocks have the same size. -/
theorem room_uniform (h : A.Rows N L a) {B : EllB R} {LB : Nat → BRow R} {b : Spec.Mat R}
    (hB : B.Rows N LB b) (hcl : B.Clean) (hNB : B.NB = A.NB) (hMB : B.MB = A.MB)
    (hbs : B.bsize = A.bsize) {s : Nat} (hs : ∀ ib, ib < A.NB → A.bsize.get ib = s) :
    Room A B := by
  intro ib jp hib hjp
  have hib' : ib < B.NB := by rw [hNB]; exact hib
  rw [h.is.nz ib hib] at hjp
  have hjM : jp < A.MB := by have := h.is.le ib hib; omega
  rcases Nat.lt_or_ge jp (LB ib).length with hl | hl
  · obtain ⟨⟨jb, c⟩, hx⟩ : ∃ x, (LB ib)[jp]? = some x := ⟨_, List.getElem?_eq_getElem hl⟩
    obtain ⟨-, x, h1, h2⟩ := hB.is.slot ib jp jb c hib' hx
    rw [hMB] at h1
    refine Or.inr ⟨x, c, h1, h2, ?_⟩
    have h3 := (hB.good ib hib').size (jb, c) (List.mem_of_getElem? hx)
    have h4 := (hB.good ib hib').lt (jb, c) (List.mem_of_getElem? hx)
    simp only at h3 h4
    obtain ⟨⟨ja, d⟩, hy⟩ : ∃ x, (L ib)[jp]? = some x := ⟨_, List.getElem?_eq_getElem hjp⟩
    have h5 := (h.good ib hib).lt (ja, d) (List.mem_of_getElem? hy)
    simp only at h5
    rw [(h.is.slot ib jp ja d hib hy).1, hs ib hib, hs ja h5]
    rw [hbs, hs ib hib, hs jb (by rw [← hNB]; exact h4)] at h3
    exact h3
  · refine Or.inl ?_
    have := hcl ib jp hib' (by rw [hB.is.nz ib hib']; exact hl) (by rw [hMB]; exact hjM)
    rwa [hMB] at this

theorem Rows.card_le (h : A.Rows N L a) {ib : Nat} (hib : ib < A.NB) (hMB : A.NB ≤ A.MB) {jb : Nat}
    (hjb : jb < A.NB) (hn : jb ∉ (L ib).map Prod.fst) : (L ib).length < A.MB := by
  have hg := h.good ib hib
  have hsub : (jb :: (L ib).map Prod.fst) ⊆ List.range A.NB := by
    intro x hx
    rcases List.mem_cons.1 hx with rfl | hx
    · exact List.mem_range.2 hjb
    · obtain ⟨p, hp, rfl⟩ := List.mem_map.1 hx
      exact List.mem_range.2 (hg.lt p hp)
  have hnd : (jb :: (L ib).map Prod.fst).Nodup := List.nodup_cons.2 ⟨hn, hg.nodup⟩
  have := (List.subperm_of_subset hnd hsub).length_le
  rw [List.length_cons, List.length_map, List.length_range] at this
  omega

end

end EllB

end Bml
