import Verif.Dist.Wrappers
import Verif.Common.DomainProof
import Verif.Ellpack.Kernel
import Verif.Dense.Rep

/-!
# Model of `bml_allGatherVParallel`

`ellpack/bml_parallel_ellpack_typed.c` 30-83, `dense/bml_parallel_dense_typed.c` 31-46,
`bml_parallel.c` 173-192.

Every rank has a matrix of the same dimensions and the same domain, of which it has computed its own
rows.  Simplification: one domain `d` for all ranks (they compute it from the same arguments, C24, C25).
-/

namespace Bml.Dist

variable {R : Type}

/-- `MPI_Allgatherv(MPI_IN_PLACE, ..., buf, counts, displs, ...)`: the buffer of rank `t` after the
call; rank `s` sends the part of its own buffer that starts at `displs[s]`. -/
def gatherInPlace (P : Nat) (bufs : Nat → Arr R) (counts displs : Arr Nat) (t : Nat) : Res (Arr R) :=
  if P ≤ counts.size ∧ P ≤ displs.size then
    allGatherv P (fun s => if displs.get s + counts.get s ≤ (bufs s).size then
        .ok ⟨counts.get s, fun k => (bufs s).get (displs.get s + k)⟩ else .ub)
      counts.get displs.get (bufs t)
  else .ub

/-- `bml_allGatherVParallel_ellpack`, lines 30-83: the matrix of rank `t` after the call. -/
def ellGather (d : Domain) (P : Nat) (A : Nat → Ell R) (t : Nat) : Res (Ell R) := do
  let nnz ← gatherInPlace P (fun s => (A s).nnz) d.extent d.rowMin t
  let idx ← gatherInPlace P (fun s => (A s).idx) d.elements d.displ t
  let val ← gatherInPlace P (fun s => (A s).val) d.elements d.displ t
  pure ⟨(A t).N, (A t).M, val, idx, nnz⟩

/-- `bml_allGatherVParallel_dense`, lines 31-46. -/
def denseGather (d : Domain) (P : Nat) (A : Nat → Dense R) (t : Nat) : Res (Dense R) := do
  let mat ← gatherInPlace P (fun s => (A s).mat) d.elements d.displ t
  pure ⟨(A t).N, mat⟩

/-- `bml_multiply_ellpack`, lines 55-118, for distinct `A`, `B` in distributed mode on more than one
rank: what rank `t` has in `C` afterwards.  Rank `s` computes its rows of the product (schedule
`sc1 s`), then the product is gathered, then rank `t` adds its rows. -/
def ellMultiply [CommRing R] [DecidableEq R] (d : Domain) (P : Nat) (A B C : Nat → Ell R) (α β : R)
    (big : R → Bool) (sc1 sc2 : Nat → Sched) (jv : Nat → Nat → R) (ji : Nat → Nat → Nat) (A2 : Nat → Ell R)
    (t : Nat) : Res (Ell R) := do
  -- the ranks up to `P` do this at the same time; the result of rank `s` is `A2 s`
  let A2 ← loop P A2 fun s A2 => do
    let X ← (A s).multAB (B s) (Ell.noinit (C s).N (C s).M (jv s) (ji s)) big (sc1 s)
    pure (upd A2 s X)
  let G ← ellGather d P A2 t
  (C t).add G β α big (sc2 t)

/-- The matrices of all ranks, by type. -/
inductive Mats (R : Type) where
  | uninitialized
  | dense (A : Nat → Dense R)
  | ellpack (A : Nat → Ell R)
  | ellblock
  | csr
  | distributed2d

/-- `bml_allGatherVParallel`, `bml_parallel.c` lines 173-192. -/
def allGatherVParallel (d : Domain) (P : Nat) : Mats R → Nat → Res (Dense R ⊕ Ell R)
  | .dense A, t => do let G ← denseGather d P A t; pure (.inl G)
  | .ellpack A, t => do let G ← ellGather d P A t; pure (.inr G)
  | .ellblock, _ => .error
  | _, _ => .error

/-! ## Proofs -/

/-- `d` cuts `N` rows at `off`. -/
structure Cut (d : Domain) (p N M : Nat) (off : Nat → Nat) : Prop where
  shape : d.Shape p
  zero : off 0 = 0
  last : off p = N
  mono : ∀ i, i < p → off i ≤ off (i + 1)
  lo : ∀ i, i < p → d.rowMin.get i = off i
  hi : ∀ i, i < p → d.rowMax.get i = off (i + 1)
  ext : ∀ i, i < p → d.extent.get i = off (i + 1) - off i
  elements : ∀ i, i < p → d.elements.get i = (off (i + 1) - off i) * M
  displ : ∀ i, i < p → d.displ.get i = off i * M

theorem Cut.mono' {d : Domain} {p N M : Nat} {off : Nat → Nat} (h : Cut d p N M off) {i j : Nat}
    (hij : i ≤ j) (hj : j ≤ p) : off i ≤ off j := by
  induction j, hij using Nat.le_induction with
  | base => exact le_refl _
  | succ j hij ih => exact (ih (by omega)).trans (h.mono j (by omega))

theorem Cut.le {d : Domain} {p N M : Nat} {off : Nat → Nat} (h : Cut d p N M off) {i : Nat} (hi : i ≤ p) :
    off i ≤ N := by rw [← h.last]; exact h.mono' hi (le_refl _)

/-- Every row belongs to a rank. -/
theorem Cut.owner {d : Domain} {p N M : Nat} {off : Nat → Nat} (h : Cut d p N M off) {r : Nat} (hr : r < N) :
    ∃ i, i < p ∧ off i ≤ r ∧ r < off (i + 1) := by
  have ex : ∀ k, k ≤ p → r < off k → ∃ i, i < k ∧ off i ≤ r ∧ r < off (i + 1) := by
    intro k
    induction k with
    | zero => intro _ h'; rw [h.zero] at h'; omega
    | succ k ih =>
      intro hk h'
      by_cases hc : r < off k
      · obtain ⟨i, a, b⟩ := ih (by omega) hc
        exact ⟨i, by omega, b⟩
      · exact ⟨k, by omega, by omega, h'⟩
  exact ex p (le_refl p) (by rw [h.last]; exact hr)

theorem Cut.mul {d : Domain} {p N M : Nat} {off : Nat → Nat} (h : Cut d p N M off) {i : Nat} (hi : i < p) :
    off i * M + (off (i + 1) - off i) * M = off (i + 1) * M := by
  rw [← Nat.add_mul]; congr 1; have := h.mono i hi; omega

/-- Gathering elements: block `s` comes from rank `s`. -/
theorem wp_gatherElements {E : Prop} {d : Domain} {p N M : Nat} {off : Nat → Nat} (h : Cut d p N M off)
    {bufs : Nat → Arr R} (hs : ∀ s, s < p → (bufs s).size = N * M) {t : Nat} (ht : t < p) :
    (gatherInPlace p bufs d.elements d.displ t).wp E (fun out => out.size = N * M ∧
      ∀ s i k, s < p → off s ≤ i → i < off (s + 1) → k < M → out.get (i * M + k) = (bufs s).get (i * M + k)) := by
  unfold gatherInPlace
  rw [if_pos ⟨by rw [h.shape.elements], by rw [h.shape.displ]⟩]
  have hfit : ∀ s, s < p → d.displ.get s + d.elements.get s ≤ N * M := fun s hsp => by
    rw [h.displ s hsp, h.elements s hsp, h.mul hsp]
    exact Nat.mul_le_mul_right M (h.le (by omega))
  refine Res.wp_mono (wp_allGatherv (x := fun s => ⟨d.elements.get s, fun k => (bufs s).get (d.displ.get s + k)⟩)
    (fun s hsp => by rw [if_pos (by rw [hs s hsp]; exact hfit s hsp)])
    (fun s _ => le_refl _) (fun s hsp => by rw [hs t ht]; exact hfit s hsp) ?_) ?_
  · intro s hsp u hu
    right; left
    rw [h.displ u (by omega), h.elements u (by omega), h.mul (by omega), h.displ s hsp]
    exact Nat.mul_le_mul_right M (h.mono' (by omega) (by omega))
  · rintro out ⟨h1, h2, -⟩
    refine ⟨h1.trans (hs t ht), fun s i k hsp hi1 hi2 hk => ?_⟩
    have hle : off s * M ≤ i * M := Nat.mul_le_mul_right M hi1
    have hlt : i * M + k < off (s + 1) * M := by
      calc i * M + k < i * M + M := by omega
        _ = (i + 1) * M := (Nat.succ_mul i M).symm
        _ ≤ off (s + 1) * M := Nat.mul_le_mul_right M hi2
    have := h.mul hsp
    have h3 := h2 s (i * M + k - off s * M) hsp (by rw [h.elements s hsp]; omega)
    simp only [h.displ s hsp] at h3
    rwa [show off s * M + (i * M + k - off s * M) = i * M + k by omega] at h3

/-- Gathering one number for each row. -/
theorem wp_gatherRows {E : Prop} {d : Domain} {p N M : Nat} {off : Nat → Nat} (h : Cut d p N M off)
    {bufs : Nat → Arr R} (hs : ∀ s, s < p → (bufs s).size = N) {t : Nat} (ht : t < p) :
    (gatherInPlace p bufs d.extent d.rowMin t).wp E (fun out => out.size = N ∧
      ∀ s i, s < p → off s ≤ i → i < off (s + 1) → out.get i = (bufs s).get i) := by
  unfold gatherInPlace
  rw [if_pos ⟨by rw [h.shape.extent], by rw [h.shape.rowMin]⟩]
  have hfit : ∀ s, s < p → d.rowMin.get s + d.extent.get s ≤ N := fun s hsp => by
    rw [h.lo s hsp, h.ext s hsp]
    have := h.mono s hsp
    have := h.le (i := s + 1) (by omega)
    omega
  refine Res.wp_mono (wp_allGatherv (x := fun s => ⟨d.extent.get s, fun k => (bufs s).get (d.rowMin.get s + k)⟩)
    (fun s hsp => by rw [if_pos (by rw [hs s hsp]; exact hfit s hsp)])
    (fun s _ => le_refl _) (fun s hsp => by rw [hs t ht]; exact hfit s hsp) ?_) ?_
  · intro s hsp u hu
    right; left
    rw [h.lo u (by omega), h.ext u (by omega), h.lo s hsp]
    have := h.mono u (by omega)
    have := h.mono' (i := u + 1) (j := s) (by omega) (by omega)
    omega
  · rintro out ⟨h1, h2, -⟩
    refine ⟨h1.trans (hs t ht), fun s i hsp hi1 hi2 => ?_⟩
    have h3 := h2 s (i - off s) hsp (by rw [h.ext s hsp]; omega)
    simp only [h.lo s hsp] at h3
    rwa [show off s + (i - off s) = i by omega] at h3

section Rep

variable [CommRing R]

theorem wp_ellGather {E : Prop} {d : Domain} {p N M : Nat} {off : Nat → Nat} (h : Cut d p N M off)
    {A : Nat → Ell R} {x : Nat → Spec.Mat R} {a : Spec.Mat R} (hA : ∀ s, s < p → (A s).Rep N (x s))
    (hM : ∀ s, s < p → (A s).M = M)
    (hx : ∀ s i j, s < p → off s ≤ i → i < off (s + 1) → j < N → x s i j = a i j) {t : Nat} (ht : t < p) :
    (ellGather d p A t).wp E (fun G => G.Rep N a ∧ G.M = M) := by
  unfold ellGather
  rw [Res.wp_bind]
  refine Res.wp_mono (wp_gatherRows h (fun s hs => by rw [(hA s hs).shape.nnz_size, (hA s hs).dim]) ht) ?_
  rintro nnz ⟨n1, n2⟩
  rw [Res.wp_bind]
  refine Res.wp_mono (wp_gatherElements h
    (fun s hs => by rw [(hA s hs).shape.idx_size, (hA s hs).dim, hM s hs]) ht) ?_
  rintro idx ⟨i1, i2⟩
  rw [Res.wp_bind]
  refine Res.wp_mono (wp_gatherElements h
    (fun s hs => by rw [(hA s hs).shape.val_size, (hA s hs).dim, hM s hs]) ht) ?_
  rintro val ⟨v1, v2⟩
  show (Ell.mk (A t).N (A t).M val idx nnz).Rep N a ∧ (A t).M = M
  have eN := (hA t ht).dim
  have eM := hM t ht
  refine ⟨Ell.rep_of_rowSat ⟨?_, ?_, ?_⟩ eN fun i hi => ?_, eM⟩
  · show val.size = (A t).N * (A t).M
    rw [eN, eM, v1]
  · show idx.size = (A t).N * (A t).M
    rw [eN, eM, i1]
  · show nnz.size = (A t).N
    rw [eN, n1]
  obtain ⟨s, hs, hs1, hs2⟩ := h.owner hi
  have hrow := (hA s hs).rowSat hi
  have e1 : nnz.get i = (A s).nnz.get i := n2 s i hs hs1 hs2
  have e2 : (Ell.mk (A t).N (A t).M val idx nnz).row i = (A s).row i := by
    show List.map _ _ = List.map _ _
    rw [show (Ell.mk (A t).N (A t).M val idx nnz).nnz.get i = (A s).nnz.get i from e1]
    refine List.map_congr_left fun k hk => ?_
    have hk' : k < M := by
      have := List.mem_range.1 hk
      have := hrow.1
      rw [hM s hs] at this
      omega
    simp only
    rw [eM, hM s hs, i2 s i k hs hs1 hs2 hk', v2 s i k hs hs1 hs2 hk']
  refine ⟨?_, ?_⟩
  · show nnz.get i ≤ (A t).M
    rw [e1, eM, ← hM s hs]; exact hrow.1
  · rw [e2]
    exact ⟨hrow.2.1, fun j hj => (hrow.2.2 j hj).trans (hx s i j hs hs1 hs2 hj)⟩

omit [CommRing R] in
theorem wp_denseGather {E : Prop} {d : Domain} {p N : Nat} {off : Nat → Nat} (h : Cut d p N N off)
    {A : Nat → Dense R} {x : Nat → Spec.Mat R} {a : Spec.Mat R} (hA : ∀ s, s < p → (A s).Rep N (x s))
    (hx : ∀ s i j, s < p → off s ≤ i → i < off (s + 1) → j < N → x s i j = a i j) {t : Nat} (ht : t < p) :
    (denseGather d p A t).wp E (fun G => G.Rep N a) := by
  unfold denseGather
  rw [Res.wp_bind]
  refine Res.wp_mono (wp_gatherElements h (fun s hs => (hA s hs).size) ht) ?_
  rintro mat ⟨h1, h2⟩
  refine ⟨(hA t ht).dim, h1, fun i j hi hj => ?_⟩
  obtain ⟨s, hs, hs1, hs2⟩ := h.owner hi
  rw [h2 s i j hs hs1 hs2 hj, (hA s hs).get i j hi hj, hx s i j hs hs1 hs2 hj]

/-- The default domain. -/
theorem default_cut {N M p : Nat} (hp : 0 < p) {junk : Nat → Nat} {cd : Nat} {d : Domain}
    (hd : Domain.default N M p .distributed junk cd = .ok d) :
    Cut d p N M (Domain.start N p) := by
  obtain ⟨d', e, h, h1, h2⟩ := Res.wp_exists
    (Domain.wp_distribute (E := False) (N := N) (M := M) hp (exactArith_fits N M) junk cd)
  have : d' = d := by
    replace hd := Domain.default_exact hd
    unfold Domain.defaultWith at hd
    simp only at hd
    rw [if_neg (by omega), e] at hd
    exact Res.ok.inj hd
  subst this
  have hx : ∀ i, i < p → d'.extent.get i = Domain.start N p (i + 1) - Domain.start N p i := by
    intro i hi; rw [h.ext i hi, Domain.start_succ, Nat.add_sub_cancel_left]
  exact ⟨h.shape, by simp [Domain.start], Domain.start_last N p hp,
    fun i _ => by rw [Domain.start_succ]; exact Nat.le_add_right _ _, h.lo, h.hi, hx,
    fun i hi => by rw [h1 i hi, hx i hi], h2⟩

/-- The domain after `bml_update_domain`. -/
theorem update_cut {M p : Nat} {off : Nat → Nat} (h0 : off 0 = 0) (hm : ∀ i, i < p → off i ≤ off (i + 1))
    {d : Domain} (h : Domain.Upd M p p off d) : Cut d p (off p) M off :=
  ⟨h.shape, h0, rfl, hm, h.lo, h.hi, h.ext, h.elements, h.displ⟩

/-- In sequential mode the parts overlap. -/
theorem ellGather_seq_ub {N M p : Nat} (hp : 2 ≤ p) (hN : 0 < N) {junk : Nat → Nat} {cd : Nat} {d : Domain}
    (hd : Domain.default N M p .sequential junk cd = .ok d) (A : Nat → Ell R) (t : Nat) :
    ellGather d p A t = .ub := by
  obtain ⟨d', e, hs, h⟩ := Res.wp_exists (Domain.wp_sequential (E := False) (N := N) (M := M) (p := p)
    (exactArith_fits N M) junk cd)
  rw [Domain.default_exact hd] at e
  cases e
  have : gatherInPlace p (fun s => (A s).nnz) d.extent d.rowMin t = .ub := by
    unfold gatherInPlace
    rw [if_pos ⟨by rw [hs.extent], by rw [hs.rowMin]⟩]
    unfold allGatherv
    rw [if_neg]
    unfold gathervOk
    rw [decide_eq_true_eq]
    intro hh
    have := hh 1 (by omega) 0 (by omega)
    rw [(h 0 (by omega)).1, (h 1 (by omega)).1, (h 0 (by omega)).2.2.1, (h 1 (by omega)).2.2.1] at this
    omega
  unfold ellGather
  rw [this]
  rfl

end Rep

end Bml.Dist
