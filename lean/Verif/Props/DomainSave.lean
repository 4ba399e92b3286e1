import Verif.Common.DomainSave
import Verif.Props.Domain
import Verif.Wlp

/-!
# Property C58: saving and restoring a domain
-/

namespace Bml.Props

open Bml.Domain

/-- The arguments of one `bml_update_domain`: first and last part of each rank and the number of
nodes of each part. -/
structure Parts where
  first : Arr Nat
  last : Arr Nat
  nodes : Arr Nat

/-- The ranges are those of `p` ranks and cover the parts in order; the nodes, times the width `M` of
the matrix, fit in an `int`. -/
def Parts.Valid (q : Parts) (p M : Nat) : Prop :=
  ∃ n, Tiling q.first q.last p n ∧ q.nodes.size = n ∧ (∑ j ∈ Finset.range n, q.nodes.get j) * M ≤ INT_MAX

/-- How a format adds up the nodes of the parts of a rank. -/
def Parts.sum (dense : Bool) (q : Parts) : Nat → Res Nat :=
  if dense then partSumDense q.first q.last q.nodes else partSumEllpack q.first q.last q.nodes

/-- `bml_update_domain` once for each element of `l`. -/
def updates (dense : Bool) (p : Nat) (l : List Parts) (A : Doms) : Res Doms :=
  forList l A fun q A => updateDoms (q.sum dense) p A

theorem updates_ok (dense : Bool) {p M : Nat} (hp : 0 < p) (d2 : Domain) (l : List Parts)
    (hl : ∀ q, q ∈ l → q.Valid p M) {d : Domain} (hd : d.Shape p) (hM : d.totalCols = M)
    (hg : d.globalRowMin = 0) :
    ∃ d1, updates dense p l (.pair d d2) = .ok (.pair d1 d2) ∧ d1.Shape p := by
  induction l generalizing d with
  | nil => exact ⟨d, rfl, hd⟩
  | cons q qs ih =>
    obtain ⟨n, ht, hn, hf⟩ := hl q List.mem_cons_self
    obtain ⟨d1, e, h, -, -⟩ := Spec.update_upd (ps := q.sum dense) hp ht hd hM hg (intArith_fits hf) (by
      intro i hi
      cases dense
      · exact wp_partSumEllpack ht hn hi
      · exact wp_partSumDense ht hn hi)
    obtain ⟨d', e', h'⟩ := ih (fun q hq => hl q (List.mem_cons_of_mem _ hq)) h.shape h.cols h.gmin
    refine ⟨d', ?_, h'⟩
    have : updateDoms (q.sum dense) p (.pair d d2) = .ok (.pair d1 d2) := by
      simp only [updateDoms, update, e]; rfl
    unfold updates forList
    beta_reduce
    rw [this, Res.bind_ok]
    exact e'

/-- **C58 (partial).**  Dense and ELLPACK matrices, every number of ranks: `bml_save_domain`, any
number of `bml_update_domain` calls and `bml_restore_domain` give every rank the rows, the number of
elements and the displacement it had when the domain was saved.  The saved domain survives, so it can
be restored again.  Missing: the smallest and largest number of rows are not restored
(`C58_extents_not_restored`), and the other formats (`C58_csr`, `C58_others`). -/
theorem C58_save_restore_partial (dense : Bool) {p : Nat} (hp : 0 < p) {d d2 : Domain}
    (hd : d.Shape p) (hd2 : d2.Shape p) (hg : d.globalRowMin = 0) (l : List Parts)
    (hl : ∀ q, q ∈ l → q.Valid p d.totalCols) :
    ∃ d' d2', (save p (.pair d d2) >>= updates dense p l >>= restore p) = .ok (.pair d' d2') ∧
      SameBlocks p d' d ∧ SameBlocks p d2' d ∧ d'.Shape p ∧ d2'.Shape p := by
  obtain ⟨e2, e, s2, b2, _⟩ := Res.wp_exists (wp_copy (E := False) hd hd2)
  obtain ⟨d1, eu, s1⟩ := updates_ok dense hp e2 l hl hd rfl hg
  obtain ⟨d', e', s', b', _⟩ := Res.wp_exists (wp_copy (E := False) s2 s1)
  refine ⟨d', e2, ?_, ⟨fun i hi => (b'.lo i hi).trans (b2.lo i hi),
    fun i hi => (b'.hi i hi).trans (b2.hi i hi), fun i hi => (b'.ext i hi).trans (b2.ext i hi),
    fun i hi => (b'.displ i hi).trans (b2.displ i hi),
    fun i hi => (b'.elements i hi).trans (b2.elements i hi)⟩, b2, s', s2⟩
  have hs : save p (.pair d d2) = .ok (.pair d e2) := by simp only [save, e]; rfl
  have hr : restore p (.pair d1 e2) = .ok (.pair d' e2) := by simp only [restore, e']; rfl
  rw [hs, Res.bind_ok, eu, Res.bind_ok, hr]

/-- Two ranks, three parts with 4, 1 and 5 nodes; the first rank gets two parts, or one. -/
def exParts : Parts := ⟨⟨2, fun i => 1 + 2 * i⟩, ⟨2, fun i => 2 + i⟩, ⟨3, fun j => [4, 1, 5].getD j 0⟩⟩
def exParts2 : Parts := ⟨⟨2, fun i => 1 + i⟩, ⟨2, fun i => 1 + 2 * i⟩, ⟨3, fun j => [2, 7, 1].getD j 0⟩⟩

example : exParts.Valid 2 10 :=
  ⟨3, ⟨rfl, rfl, rfl, by intro i hi; have : i = 0 := by omega
                         subst this; rfl,
    by intro i hi; simp only [exParts]; omega, rfl⟩, rfl, by decide⟩

example : exParts2.Valid 2 10 :=
  ⟨3, ⟨rfl, rfl, rfl, by intro i hi; have : i = 0 := by omega
                         subst this; rfl,
    by intro i hi; simp only [exParts2]; omega, rfl⟩, rfl, by decide⟩

/-- What a rank can see of the current domain. -/
def seen (i : Nat) : Doms → Res (Nat × Nat × Nat)
  | .pair d _ => do
    let a ← d.rowMin.read i
    let b ← d.rowMax.read i
    pure (a, b, d.maxExtent)
  | _ => .ub

/-- The default domain of a 10 × 10 matrix on two ranks: 5 rows each. -/
def exDoms : Res Doms := do
  let d ← Domain.default 10 10 2 .distributed (fun _ => 77) 5
  let d2 ← Domain.default 10 10 2 .distributed (fun _ => 78) 5
  pure (.pair d d2)

/-- The updates really change the rows, and the restoration undoes it. -/
example : (exDoms >>= seen 1) = .ok (5, 10, 5) ∧
    (exDoms >>= updates false 2 [exParts, exParts2] >>= seen 1) = .ok (2, 10, 8) ∧
    (exDoms >>= save 2 >>= updates false 2 [exParts, exParts2] >>= restore 2 >>= seen 1) =
      .ok (5, 10, 8) := by decide +kernel

/-- **C58 fails** for the extents: after the restoration the ranks have 5 rows each again, but the
largest number of rows of a rank is still the one of the abandoned domain. -/
theorem C58_extents_not_restored :
    (exDoms >>= seen 1) = .ok (5, 10, 5) ∧
    (exDoms >>= save 2 >>= updates true 2 [exParts, exParts2] >>= restore 2 >>= seen 1) =
      .ok (5, 10, 8) := by decide +kernel

/-- **C58 fails** for CSR: its matrices never get domains, so both calls follow an unset pointer. -/
theorem C58_csr (p : Nat) : save p .unset = .ub ∧ restore p .unset = .ub := ⟨rfl, rfl⟩

/-- **C58**: the other formats refuse the calls. -/
theorem C58_others (p : Nat) : save p .absent = .error ∧ restore p .absent = .error := ⟨rfl, rfl⟩

end Bml.Props
