import Verif.Dist.Formats
import Verif.Ellblock.Ops26
import Verif.Props.Ellblock4

/-!
# The distributed product over block-ELLPACK matrices
-/

namespace Bml

namespace Dist

variable {R : Type} [CommRing R]

/-- What the block-ELLPACK functions of the ranks depend on: the global block sizes, the schedules of
the copies, of the products and of the sums, uninitialised memory. -/
structure EllbRun (R : Type) where
  g : EllB.Glob
  sc : Nat → Nat → Sched
  sc1 : Nat → Nat → Sched
  sc2 : Nat → Nat → Sched
  junk : Nat → Nat → Nat → R

/-- The schedules execute the loops over `nb` block rows. -/
structure EllbRun.Ok (c : EllbRun R) (nb : Nat) : Prop where
  g : c.g.mb ≠ 0
  sc : ∀ r k, IsSched 0 nb (c.sc r k)
  sc1 : ∀ r k, IsSched 0 nb (c.sc1 r k)
  sc2 : ∀ r k, IsSched 0 nb (c.sc2 r k)

/-- The block-ELLPACK functions (`bml_copy_new`, `bml_mpi_send`/`bml_mpi_irecv`, `bml_multiply`). -/
def ellbOps (c : EllbRun R) (nz big : R → Bool) : Ops (EllB R) R where
  copyNew r k A := do
    let x ← EllB.copyMatrix c.g (c.sc r k) A
    pure x.2
  deliver := EllB.deliver
  multiply r k A B C α β := do
    let x ← EllB.multiply c.g (c.sc1 r k) (c.sc2 r k) nz big (c.junk r k) A B C α β
    pure x.2

/-- `A` is the `n × n` matrix `a`, made for `n` elements per row, with the block sizes `bs`. -/
structure BTile (n NB MB : Nat) (bs : Arr Nat) (A : EllB R) (a : Spec.Mat R) : Prop where
  rep : A.Represents n a
  M : A.M = n
  NB : A.NB = NB
  MB : A.MB = MB
  bsize : A.bsize = bs

theorem BTile.same {n NB MB : Nat} {bs : Arr Nat} {A B : EllB R} {a b : Spec.Mat R}
    (h : BTile n NB MB bs A a) (hs : EllB.Same A B) (hB : B.Represents n b) : BTile n NB MB bs B b :=
  ⟨hB, hs.M.trans h.M, hs.NB.trans h.NB, hs.MB.trans h.MB, hs.bsize.trans h.bsize⟩

theorem ellbOps_exact {c : EllbRun R} {n s NB MB : Nat} {bs : Arr Nat} (hc : c.Ok NB) (h0 : 0 < NB)
    (hMB : NB ≤ MB) (hu : ∀ ib, ib < NB → bs.get ib = s) (hs : 0 < s ∧ s ≤ 6) {nz big : R → Bool}
    (hnz : ∀ x, nz x = false → x = 0) (hbig : ∀ x, big x = false → x = 0) :
    (ellbOps c nz big).Exact n (BTile n NB MB bs)
      (fun A a => BTile n NB MB bs A a ∧ A.Tidy ∧ A.Ample) where
  congr {A a b} h hab := by
    obtain ⟨L, hL⟩ := EllB.represents_iff.1 h.1.rep
    exact ⟨⟨EllB.represents_iff.2 ⟨L, hL.congr hab⟩, h.1.M, h.1.NB, h.1.MB, h.1.bsize⟩, h.2⟩
  copy r k {A a} h := by
    obtain ⟨L, hL⟩ := EllB.represents_iff.1 h.rep
    obtain ⟨⟨g', B⟩, e, -, L', h1, -, h2, -⟩ := Res.wp_exists (hL.wp_copyMatrix (E := False)
      (by rw [h.MB]; omega) (le_of_eq h.M) (by rw [h.NB]; exact h0)
      (fun ib hib => by rw [h.bsize, hu ib (by rw [← h.NB]; exact hib)]; omega) hc.g
      (sc := c.sc r k) (by rw [h.NB]; exact hc.sc r k))
    refine ⟨B, ?_, h.same h2 (EllB.represents_iff.2 ⟨L', h1⟩)⟩
    show (EllB.copyMatrix c.g (c.sc r k) A >>= fun x => pure x.2) = _
    rw [e]; rfl
  deliver {A B a b} hA hB := by
    obtain ⟨L, hL⟩ := EllB.represents_iff.1 hA.rep
    obtain ⟨K, hK⟩ := EllB.represents_iff.1 hB.rep
    have hS : EllB.Same A B := ⟨hB.rep.dim.trans hA.rep.dim.symm, hB.M.trans hA.M.symm,
      hB.NB.trans hA.NB.symm, hB.MB.trans hA.MB.symm, hB.bsize.trans hA.bsize.symm⟩
    obtain ⟨B', e, h1, -, -, ⟨L', h2, -⟩, -⟩ := Res.wp_exists (hL.wp_deliver (E := False) hK.is hS
      (by rw [hL.dim, hA.M]; exact hL.stored_le))
    exact ⟨B', e, hA.same h1 (EllB.represents_iff.2 ⟨L', h2⟩)⟩
  multiply r k {A B C a b c'} hA hB hC α β := by
    have hu' : ∀ ib, ib < A.NB → A.bsize.get ib = s := by
      intro ib hib
      rw [hA.NB] at hib
      rw [hA.bsize, hu ib hib]
    have h6 : Props.SmallBlocks A := by
      intro ib hib
      rw [hu' ib hib]
      exact hs
    have hNB := hC.1.NB
    have hMB' := hC.1.MB
    obtain ⟨C', e, h1, h2, h3⟩ := Props.C63_multiply_room_partial hA.rep hB.rep hC.1.rep
      (hB.NB.trans hA.NB.symm) (hB.bsize.trans hA.bsize.symm) (hC.1.NB.trans hA.NB.symm)
      (hC.1.bsize.trans hA.bsize.symm) h6 hu' hC.2 (by omega) (by omega) (le_of_eq hC.1.M)
      hc.g (sc := c.sc1 r k) (sc' := c.sc2 r k) (by rw [hA.NB]; exact hc.sc1 r k)
      (by rw [hA.NB]; exact hc.sc2 r k) hnz hbig (c.junk r k) α β
    refine ⟨C', ?_, hC.1.same h1 h3, h2⟩
    show (EllB.multiply c.g (c.sc1 r k) (c.sc2 r k) nz big (c.junk r k) A B C α β >>= fun x =>
      pure x.2) = _
    rw [e]; rfl

end Dist

end Bml
