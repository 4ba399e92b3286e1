import Verif.Common.DomainProof

/-!
# Saving and restoring a domain

`bml_copy_domain`, `bml_save_domain` and `bml_restore_domain` of `bml_copy.c`.
-/

namespace Bml.Domain

/-- `memcpy(b, a, p * sizeof(int))`. -/
def memcpy (p : Nat) (a b : Arr Nat) : Res (Arr Nat) :=
  loop p b fun i b => do
    let x ← a.read i
    b.write i x

/-- `bml_copy_domain`, `bml_copy.c` lines 150-162: the five arrays.  The scalar members of `B` stay. -/
def copy (p : Nat) (A B : Domain) : Res Domain := do
  let rowMin ← memcpy p A.rowMin B.rowMin
  let rowMax ← memcpy p A.rowMax B.rowMax
  let extent ← memcpy p A.extent B.extent
  let displ ← memcpy p A.displ B.displ
  let elements ← memcpy p A.elements B.elements
  pure { B with rowMin := rowMin, rowMax := rowMax, extent := extent, displ := displ,
                elements := elements }

/-- The two domains of a matrix.  The structures of dense and ELLPACK matrices hold a domain and a
saved one; CSR matrices have the two pointers, but no function ever sets them (the allocations in
`bml_allocate_csr_typed.c` lines 130-133 and 211-214 and the copies in `bml_copy_csr_typed.c` are
comments); block-ELLPACK and distributed matrices have no domain. -/
inductive Doms where
  | pair (dom dom2 : Domain)
  | unset
  | absent

/-- `bml_save_domain`, `bml_copy.c` lines 169-190, and `bml_save_domain_dense`, `_ellpack`, `_csr`
(for instance `bml_copy_csr.c` lines 124-129), on `p` ranks. -/
def save (p : Nat) : Doms → Res Doms
  | .pair d d2 => do
    let d2 ← copy p d d2
    pure (.pair d d2)
  | .unset => .ub
  | .absent => .error

/-- `bml_restore_domain`, `bml_copy.c` lines 196-217, and the functions of the formats (for instance
`bml_copy_csr.c` lines 137-142). -/
def restore (p : Nat) : Doms → Res Doms
  | .pair d d2 => do
    let d ← copy p d2 d
    pure (.pair d d2)
  | .unset => .ub
  | .absent => .error

/-- `bml_update_domain` on the pair: only the current domain changes.  CSR and block-ELLPACK
matrices refuse (`bml_allocate_csr.c`, `bml_update_domain_csr`). -/
def updateDoms (partSum : Nat → Res Nat) (p : Nat) : Doms → Res Doms
  | .pair d d2 => do
    let d ← update partSum p d
    pure (.pair d d2)
  | .unset => .error
  | .absent => .error

theorem wp_memcpy {E : Prop} {p : Nat} {a b : Arr Nat} (ha : a.size = p) (hb : b.size = p) :
    (memcpy p a b).wp E fun c => c.size = p ∧ ∀ i, i < p → c.get i = a.get i := by
  unfold memcpy
  refine wp_loop (fun k (c : Arr Nat) => c.size = p ∧ ∀ i, i < k → c.get i = a.get i)
    ⟨hb, fun i hi => by omega⟩ ?_
  rintro k hk c ⟨h1, h2⟩
  rw [Arr.read_ok (by omega), Res.bind_ok, Arr.wp_write]
  refine ⟨by omega, h1, fun i hi => ?_⟩
  by_cases e : i = k
  · subst e; exact upd_same ..
  · show upd c.get k _ i = _
    rw [upd_ne _ _ e]
    exact h2 i (by omega)

/-- The two domains assign the same rows and elements to each of the `p` ranks. -/
structure SameBlocks (p : Nat) (a b : Domain) : Prop where
  lo : ∀ i, i < p → a.rowMin.get i = b.rowMin.get i
  hi : ∀ i, i < p → a.rowMax.get i = b.rowMax.get i
  ext : ∀ i, i < p → a.extent.get i = b.extent.get i
  displ : ∀ i, i < p → a.displ.get i = b.displ.get i
  elements : ∀ i, i < p → a.elements.get i = b.elements.get i

theorem wp_copy {E : Prop} {p : Nat} {A B : Domain} (hA : A.Shape p) (hB : B.Shape p) :
    (copy p A B).wp E fun C => C.Shape p ∧ SameBlocks p C A ∧ C.totalRows = B.totalRows ∧
      C.totalCols = B.totalCols ∧ C.globalRowMin = B.globalRowMin ∧
      C.minExtent = B.minExtent ∧ C.maxExtent = B.maxExtent := by
  unfold copy
  simp only [Res.wp_bind, Res.wp_pure]
  refine Res.wp_mono (wp_memcpy hA.rowMin hB.rowMin) fun a1 h1 => ?_
  refine Res.wp_mono (wp_memcpy hA.rowMax hB.rowMax) fun a2 h2 => ?_
  refine Res.wp_mono (wp_memcpy hA.extent hB.extent) fun a3 h3 => ?_
  refine Res.wp_mono (wp_memcpy hA.displ hB.displ) fun a4 h4 => ?_
  refine Res.wp_mono (wp_memcpy hA.elements hB.elements) fun a5 h5 => ?_
  exact ⟨⟨h1.1, h2.1, h3.1, h5.1, h4.1⟩, ⟨h1.2, h2.2, h3.2, h4.2, h5.2⟩, by trivial, by trivial, by trivial,
    by trivial, by trivial⟩

end Bml.Domain
