import Verif.Dist.Gather
import Verif.Props.Domain
import Verif.Props.EllOps
import Verif.Props.Dense
import Verif.Wlp

/-!
# Property C41: gathering the rows of all ranks

`p` ranks have matrices of the same dimensions; rank `s` is responsible for the rows
`d.rowMin s ≤ i < d.rowMax s` of the domain `d` (C24, C25).  `A s` is the matrix of rank `s`; it
represents some matrix `x s` whose own rows are those of `a`.
-/

namespace Bml.Props

open Dist

variable {R : Type} [CommRing R]

/-- `x s` has the rows of `a` that belong to rank `s`. -/
def Spec.OwnRows (p N : Nat) (d : Domain) (x : Nat → Spec.Mat R) (a : Spec.Mat R) : Prop :=
  ∀ s i j, s < p → d.rowMin.get s ≤ i → i < d.rowMax.get s → j < N → x s i j = a i j

theorem Spec.OwnRows.cut {p N M : Nat} {d : Domain} {x : Nat → Spec.Mat R} {a : Spec.Mat R} {off : Nat → Nat}
    (h : Spec.OwnRows p N d x a) (hc : Cut d p N M off) :
    ∀ s i j, s < p → off s ≤ i → i < off (s + 1) → j < N → x s i j = a i j :=
  fun s i j hs h1 h2 hj => h s i j hs (by rw [hc.lo s hs]; exact h1) (by rw [hc.hi s hs]; exact h2) hj

/-- **C41**, ELLPACK: for the distributed default domain of every number of rows, width and number of
ranks, every rank has all the rows after `bml_allGatherVParallel`. -/
theorem C41_gather_ellpack {N M p : Nat} (hp : 0 < p) {junk : Nat → Nat} {cd : Nat} {d : Domain}
    (hd : Domain.default N M p .distributed junk cd = .ok d) {A : Nat → Ell R} {x : Nat → Spec.Mat R}
    {a : Spec.Mat R} (hA : ∀ s, s < p → (A s).Represents N (x s)) (hM : ∀ s, s < p → (A s).M = M)
    (hx : Spec.OwnRows p N d x a) {t : Nat} (ht : t < p) :
    ∃ G, allGatherVParallel d p (.ellpack A) t = .ok (.inr G) ∧ G.Represents N a ∧ G.M = M := by
  have hc := default_cut hp hd
  obtain ⟨G, e, h1, h2⟩ := Res.wp_exists (wp_ellGather (E := False) hc
    (fun s hs => Ell.represents_iff.1 (hA s hs)) hM (hx.cut hc) ht)
  refine ⟨G, ?_, Ell.represents_iff.2 h1, h2⟩
  show (ellGather d p A t >>= fun G => pure (Sum.inr G)) = _
  rw [e]; rfl

/-- **C41**, dense. -/
theorem C41_gather_dense {N p : Nat} (hp : 0 < p) {junk : Nat → Nat} {cd : Nat} {d : Domain}
    (hd : Domain.default N N p .distributed junk cd = .ok d) {A : Nat → Dense R} {x : Nat → Spec.Mat R}
    {a : Spec.Mat R} (hA : ∀ s, s < p → (A s).Represents N (x s))
    (hx : Spec.OwnRows p N d x a) {t : Nat} (ht : t < p) :
    ∃ G, allGatherVParallel d p (.dense A) t = .ok (.inl G) ∧ G.Represents N a := by
  have hc := default_cut hp hd
  obtain ⟨G, e, h1⟩ := Res.wp_exists (wp_denseGather (E := False) hc
    (fun s hs => Dense.represents_iff.1 (hA s hs)) (hx.cut hc) ht)
  refine ⟨G, ?_, Dense.represents_iff.2 h1⟩
  show (denseGather d p A t >>= fun G => pure (Sum.inl G)) = _
  rw [e]; rfl

/-- **C41** after `bml_update_domain`: the parts of the graph may give any row counts, also none. -/
theorem C41_gather_updated {pmin pmax nn : Arr Nat} {p n N M : Nat} (hp : 0 < p)
    (ht : Domain.Tiling pmin pmax p n) (hn : nn.size = n) {d d' : Domain} (hd : d.Shape p)
    (hM : d.totalCols = M) (hg : d.globalRowMin = 0)
    (hu : Domain.update (Domain.partSumEllpack pmin pmax nn) p d = .ok d')
    (hN : ∑ j ∈ Finset.range n, nn.get j = N) {A : Nat → Ell R} {x : Nat → Spec.Mat R}
    {a : Spec.Mat R} (hA : ∀ s, s < p → (A s).Represents N (x s)) (hAM : ∀ s, s < p → (A s).M = M)
    (hx : Spec.OwnRows p N d' x a) {t : Nat} (htp : t < p) :
    ∃ G, allGatherVParallel d' p (.ellpack A) t = .ok (.inr G) ∧ G.Represents N a ∧ G.M = M := by
  obtain ⟨d1, e, h, h0, hm⟩ := Spec.update_upd hp ht hd hM hg (exactArith_fits _ _)
    (fun i hi => Domain.wp_partSumEllpack (E := False) ht hn hi)
  rw [Domain.update_exact hu] at e
  cases e
  have hc := update_cut h0 hm h
  have hlast : Spec.rowsBefore pmin nn n p p = N := by
    unfold Spec.rowsBefore; rw [if_neg (by omega), hN]
  rw [hlast] at hc
  obtain ⟨G, e, h1, h2⟩ := Res.wp_exists (wp_ellGather (E := False) hc
    (fun s hs => Ell.represents_iff.1 (hA s hs)) hAM (hx.cut hc) htp)
  refine ⟨G, ?_, Ell.represents_iff.2 h1, h2⟩
  show (ellGather d' p A t >>= fun G => pure (Sum.inr G)) = _
  rw [e]; rfl

/-- **C41**, dense, after `bml_update_domain`. -/
theorem C41_gather_updated_dense {pmin pmax nn : Arr Nat} {p n N : Nat} (hp : 0 < p)
    (ht : Domain.Tiling pmin pmax p n) (hn : nn.size = n) {d d' : Domain} (hd : d.Shape p)
    (hM : d.totalCols = N) (hg : d.globalRowMin = 0)
    (hu : Domain.update (Domain.partSumDense pmin pmax nn) p d = .ok d')
    (hN : ∑ j ∈ Finset.range n, nn.get j = N) {A : Nat → Dense R} {x : Nat → Spec.Mat R}
    {a : Spec.Mat R} (hA : ∀ s, s < p → (A s).Represents N (x s))
    (hx : Spec.OwnRows p N d' x a) {t : Nat} (htp : t < p) :
    ∃ G, allGatherVParallel d' p (.dense A) t = .ok (.inl G) ∧ G.Represents N a := by
  obtain ⟨d1, e, h, h0, hm⟩ := Spec.update_upd hp ht hd hM hg (exactArith_fits _ _)
    (fun i hi => Domain.wp_partSumDense (E := False) ht hn hi)
  rw [Domain.update_exact hu] at e
  cases e
  have hc := update_cut h0 hm h
  have hlast : Spec.rowsBefore pmin nn n p p = N := by
    unfold Spec.rowsBefore; rw [if_neg (by omega), hN]
  rw [hlast] at hc
  obtain ⟨G, e, h1⟩ := Res.wp_exists (wp_denseGather (E := False) hc
    (fun s hs => Dense.represents_iff.1 (hA s hs)) (hx.cut hc) htp)
  refine ⟨G, ?_, Dense.represents_iff.2 h1⟩
  show (denseGather d' p A t >>= fun G => pure (Sum.inl G)) = _
  rw [e]; rfl

/-! ## The rows computed by their owners -/

/-- **C41**, `bml_scale_inplace` by every rank on its rows, then the gather: every rank has `c A`. -/
theorem C41_scale_gather {N M p : Nat} (hp : 0 < p) {junk : Nat → Nat} {cd : Nat} {d : Domain}
    (hd : Domain.default N M p .distributed junk cd = .ok d) {A : Nat → Ell R}
    {a : Spec.Mat R} (hA : ∀ s, s < p → (A s).Represents N a) (hM : ∀ s, s < p → (A s).M = M) (c : R) :
    ∃ B, (∀ s, s < p → Ell.scaleInplace c (A s) (d.rowMin.get s) (d.rowMax.get s) = .ok (B s)) ∧
      ∀ t, t < p → ∃ G, allGatherVParallel d p (.ellpack B) t = .ok (.inr G) ∧
        G.Represents N (Spec.scale c a) := by
  have hc := default_cut hp hd
  have h1 : ∀ s, ∃ B, s < p → Ell.scaleInplace c (A s) (d.rowMin.get s) (d.rowMax.get s) = .ok B ∧
      B.M = M ∧ B.Represents N (Spec.onRows (d.rowMin.get s) (d.rowMax.get s) (Spec.scale c a) a) := by
    intro s
    by_cases hs : s < p
    · obtain ⟨B, e, h2, h3⟩ := C10_scale_inplace (hA s hs) c (lo := d.rowMin.get s) (hi := d.rowMax.get s)
        (by rw [hc.lo s hs, hc.hi s hs]; exact hc.mono s hs)
        (by rw [hc.hi s hs]; exact hc.le (by omega))
      exact ⟨B, fun _ => ⟨e, h2.trans (hM s hs), h3⟩⟩
    · exact ⟨A 0, fun h => absurd h hs⟩
  choose B hB using h1
  refine ⟨B, fun s hs => (hB s hs).1, fun t ht => ?_⟩
  obtain ⟨G, e, h, -⟩ := C41_gather_ellpack hp hd (a := Spec.scale c a) (fun s hs => (hB s hs).2.2)
    (fun s hs => (hB s hs).2.1) (fun s i j hs h1 h2 _ => by simp only [Spec.onRows]; rw [if_pos ⟨h1, h2⟩]) ht
  exact ⟨G, e, h⟩

/-- **C41**, `bml_multiply_x2` by every rank on its rows, then the gather: every rank has the square
that one rank computes (C13), and the partial traces of the ranks add up to the traces. -/
theorem C41_x2_gather {N M p : Nat} (hp : 0 < p) {junk : Nat → Nat} {cd : Nat} {d : Domain}
    (hd : Domain.default N M p .distributed junk cd = .ok d) {X C : Nat → Ell R}
    {a : Spec.Mat R} {c : Nat → Spec.Mat R} (hX : ∀ s, s < p → (X s).Represents N a)
    (hC : ∀ s, s < p → (C s).Represents N (c s)) (hM : ∀ s, s < p → (C s).M = M) (big : R → Bool)
    {sc : Nat → Sched} (hsc : ∀ s, s < p → IsSched (d.rowMin.get s) (d.rowMax.get s) (sc s))
    (hfit : ∀ s i, s < p → i < N → Ell.x2Fill (X s) big a N i ≤ M) :
    ∃ (B : Nat → Ell R) (t1 t2 : Nat → R), (∀ s, s < p → Ell.multX2 (X s) (C s) big (sc s) = .ok (B s, t1 s, t2 s)) ∧
      (∑ s ∈ Finset.range p, t1 s = Spec.tr N a) ∧
      (∑ s ∈ Finset.range p, t2 s = Spec.tr N (Spec.mul N a a)) ∧
      ∀ t, t < p → ∃ G, allGatherVParallel d p (.ellpack B) t = .ok (.inr G) ∧
        G.Represents N (Spec.keepOff big (Spec.mul N a a)) := by
  have hc := default_cut hp hd
  have h1 : ∀ s, ∃ B, s < p → Ell.multX2 (X s) (C s) big (sc s) =
        .ok (B, ∑ i ∈ Finset.Ico (d.rowMin.get s) (d.rowMax.get s), a i i,
          ∑ i ∈ Finset.Ico (d.rowMin.get s) (d.rowMax.get s), Spec.mul N a a i i) ∧
      B.M = M ∧ B.Represents N (Spec.onRows (d.rowMin.get s) (d.rowMax.get s)
        (Spec.keepOff big (Spec.mul N a a)) (c s)) := by
    intro s
    by_cases hs : s < p
    · obtain ⟨B, e, h2, h3⟩ := C13_x2 (hX s hs) (hC s hs) big (hsc s hs)
        (by rw [hc.hi s hs]; exact hc.le (by omega))
        (fun i _ hi => by
          rw [hM s hs]
          exact hfit s i hs (lt_of_lt_of_le hi (by rw [hc.hi s hs]; exact hc.le (by omega))))
      exact ⟨B, fun _ => ⟨e, h2.trans (hM s hs), h3⟩⟩
    · exact ⟨X 0, fun h => absurd h hs⟩
  choose B hB using h1
  have hsum : ∀ f : Nat → R, ∑ s ∈ Finset.range p, ∑ i ∈ Finset.Ico (d.rowMin.get s) (d.rowMax.get s), f i =
      ∑ i ∈ Finset.range N, f i := by
    intro f
    have key : ∀ q, q ≤ p → ∑ s ∈ Finset.range q, ∑ i ∈ Finset.Ico (d.rowMin.get s) (d.rowMax.get s), f i =
        ∑ i ∈ Finset.range (Domain.start N p q), f i := by
      intro q
      induction q with
      | zero => intro _; rw [hc.zero]; rfl
      | succ q ih =>
        intro hq
        rw [Finset.sum_range_succ, ih (by omega), hc.lo q hq, hc.hi q hq,
          Finset.sum_range_add_sum_Ico _ (hc.mono q hq)]
    rw [key p (le_refl _), hc.last]
  refine ⟨B, _, _, fun s hs => (hB s hs).1, hsum _, hsum _, fun t ht => ?_⟩
  obtain ⟨G, e, h, -⟩ := C41_gather_ellpack hp hd (a := Spec.keepOff big (Spec.mul N a a))
    (fun s hs => (hB s hs).2.2) (fun s hs => (hB s hs).2.1)
    (fun s i j hs h1 h2 _ => by simp only [Spec.onRows]; rw [if_pos ⟨h1, h2⟩]) ht
  exact ⟨G, e, h⟩

/-- **C41**, `bml_multiply` in distributed mode: after the product of the ranks is gathered, rank `t`
has on its rows what one rank would have computed (C14); the other rows of its `C` are unchanged. -/
theorem C41_multiply [DecidableEq R] {N M p : Nat} (hp : 0 < p) {junk : Nat → Nat} {cd : Nat} {d : Domain}
    (hd : Domain.default N M p .distributed junk cd = .ok d) {A B C : Nat → Ell R}
    {a b : Spec.Mat R} {c : Nat → Spec.Mat R} (hA : ∀ s, s < p → (A s).Represents N a)
    (hB : ∀ s, s < p → (B s).Represents N b) (hC : ∀ s, s < p → (C s).Represents N (c s))
    (hM : ∀ s, s < p → (C s).M = M) (α β : R) (big : R → Bool) {sc1 sc2 : Nat → Sched}
    (hsc1 : ∀ s, s < p → IsSched (d.rowMin.get s) (d.rowMax.get s) (sc1 s))
    (hsc2 : ∀ s, s < p → IsSched (d.rowMin.get s) (d.rowMax.get s) (sc2 s))
    (jv : Nat → Nat → R) (ji : Nat → Nat → Nat) (A2 : Nat → Ell R)
    (hfill : ∀ s i, s < p → i < N → Ell.productFill (A s) (B s) N i ≤ M)
    {t : Nat} (ht : t < p)
    (hfit : ∀ i, i < N → Spec.rowCount big N
      (fun i j => β * c t i j + α * Spec.keepOff big (Spec.mul N a b) i j) i ≤ M) :
    ∃ C', ellMultiply d p A B C α β big sc1 sc2 jv ji A2 t = .ok C' ∧ C'.M = M ∧
      C'.Represents N (Spec.onRows (d.rowMin.get t) (d.rowMax.get t)
        (Spec.add big β α (c t) (Spec.keepOff big (Spec.mul N a b))) (c t)) := by
  have hc := default_cut hp hd
  have hle : ∀ s, s < p → d.rowMax.get s ≤ N := fun s hs => by rw [hc.hi s hs]; exact hc.le (by omega)
  have hloop : (loop p A2 fun s A2 => do
      let X ← (A s).multAB (B s) (Ell.noinit (C s).N (C s).M (jv s) (ji s)) big (sc1 s)
      pure (upd A2 s X)).wp False (fun A2 => ∀ s, s < p → (A2 s).M = M ∧ (A2 s).Represents N
        (Spec.onRows (d.rowMin.get s) (d.rowMax.get s) (Spec.keepOff big (Spec.mul N a b)) Spec.zero)) := by
    refine wp_loop' (fun m A2 => ∀ s, s < m → (A2 s).M = M ∧ (A2 s).Represents N
        (Spec.onRows (d.rowMin.get s) (d.rowMax.get s) (Spec.keepOff big (Spec.mul N a b)) Spec.zero))
      (fun s h => absurd h (Nat.not_lt_zero _)) ?_ (fun _ h => h)
    intro s hs A2 ih
    rcases C12_multiply_AB (hA s hs) (hB s hs) (C := Ell.noinit (C s).N (C s).M (jv s) (ji s))
      (Ell.represents_iff.2 (by rw [(hC s hs).dim]; exact Ell.noinit_rep N (C s).M (jv s) (ji s)))
      big (hsc1 s hs) (hle s hs) with ⟨-, X, e, h1, h2⟩ | ⟨⟨i, -, hi, hgt⟩, -⟩
    · rw [e, Res.bind_ok]
      intro u hu
      rcases Nat.lt_succ_iff_lt_or_eq.1 hu with hu | rfl
      · rw [upd_ne _ _ (by omega)]; exact ih u hu
      · rw [upd_same]; exact ⟨h1.trans (hM u hs), h2⟩
    · have := hfill s i hs (lt_of_lt_of_le hi (hle s hs))
      have h' : (Ell.noinit (C s).N (C s).M (jv s) (ji s)).M = M := hM s hs
      omega
  obtain ⟨X, e1, hX⟩ := Res.wp_exists hloop
  obtain ⟨G, e2, h1, h2⟩ := Res.wp_exists (wp_ellGather (E := False) hc
    (a := Spec.keepOff big (Spec.mul N a b))
    (fun s hs => Ell.represents_iff.1 (hX s hs).2) (fun s hs => (hX s hs).1)
    (fun s i j hs h1 h2 _ => by
      simp only [Spec.onRows]
      rw [if_pos ⟨by rw [hc.lo s hs]; exact h1, by rw [hc.hi s hs]; exact h2⟩]) ht)
  obtain ⟨C', e3, h3, h4⟩ := C08_add (hC t ht) (Ell.represents_iff.2 h1) β α big (hsc2 t ht) (hle t ht)
    (fun i _ hi => by rw [hM t ht]; exact hfit i (lt_of_lt_of_le hi (hle t ht)))
  refine ⟨C', ?_, h3.trans (hM t ht), h4⟩
  unfold ellMultiply
  rw [e1, Res.bind_ok, e2, Res.bind_ok]
  exact e3

/-! ## Where it cannot be used -/

/-- **C41 fails in sequential mode** on two or more ranks: all the ranks own all the rows, the parts of
the receive buffer overlap. -/
theorem C41_sequential_overlap {N M p : Nat} (hp : 2 ≤ p) (hN : 0 < N) {junk : Nat → Nat} {cd : Nat}
    {d : Domain} (hd : Domain.default N M p .sequential junk cd = .ok d) (A : Nat → Ell R) (t : Nat) :
    allGatherVParallel d p (.ellpack A) t = .ub := by
  show (ellGather d p A t >>= fun G => pure (Sum.inr G)) = _
  rw [ellGather_seq_ub hp hN hd A t]; rfl

/-- **C41**, the other formats: reported as not available. -/
theorem C41_other_formats (d : Domain) (p t : Nat) :
    allGatherVParallel d p (.csr : Mats R) t = .error ∧
    allGatherVParallel d p (.ellblock : Mats R) t = .error := ⟨rfl, rfl⟩

/-! ## Examples: three rows on two ranks -/

/-- The domain: two rows and one row. -/
def exDom : Domain :=
  match Domain.default 3 4 2 .distributed (fun _ => 77) 2 with
  | .ok d => d
  | _ => Domain.alloc 0 0 0 fun _ => 0

theorem exDom_ok : Domain.default 3 4 2 .distributed (fun _ => 77) 2 = .ok exDom := rfl

/-- Rank 0 has the rows of the first example matrix, rank 1 those of the second. -/
example : ∃ G, allGatherVParallel exDom 2 (.ellpack fun s => if s = 0 then exA else exB) 1 = .ok (.inr G) ∧
    G.Represents 3 (fun i j => if i < 2 then exa i j else exb i j) := by
  obtain ⟨G, e, h, -⟩ := C41_gather_ellpack (by omega) exDom_ok
    (A := fun s => if s = 0 then exA else exB) (x := fun s => if s = 0 then exa else exb)
    (a := fun i j => if i < 2 then exa i j else exb i j)
    (fun s hs => by
      rcases (show s = 0 ∨ s = 1 by omega) with rfl | rfl
      · exact exA_rep
      · exact exB_rep)
    (fun s hs => by
      rcases (show s = 0 ∨ s = 1 by omega) with rfl | rfl <;> rfl)
    (fun s i j hs h1 h2 _ => by
      rcases (show s = 0 ∨ s = 1 by omega) with rfl | rfl
      · have : i < 2 := h2
        simp [this]
      · have : 2 ≤ i := h1
        have : ¬ i < 2 := by omega
        simp [this]) (t := 1) (by omega)
  exact ⟨G, e, h⟩

example : ∃ B, (∀ s, s < 2 → Ell.scaleInplace 5 exA (exDom.rowMin.get s) (exDom.rowMax.get s) = .ok (B s)) ∧
    ∀ t, t < 2 → ∃ G, allGatherVParallel exDom 2 (.ellpack B) t = .ok (.inr G) ∧
      G.Represents 3 (Spec.scale 5 exa) :=
  C41_scale_gather (by omega) exDom_ok (A := fun _ => exA) (fun _ _ => exA_rep) (fun _ _ => rfl) 5

example : ∃ C', ellMultiply exDom 2 (fun _ => exA) (fun _ => exB) (fun _ => exA) 2 (-1) exBig
      (fun s => seqSched (exDom.rowMin.get s) (exDom.rowMax.get s))
      (fun s => seqSched (exDom.rowMin.get s) (exDom.rowMax.get s)) (fun _ _ => 5) (fun _ _ => 9)
      (fun _ => exA) 1 = .ok C' ∧ C'.M = 4 ∧
    C'.Represents 3 (Spec.onRows 2 3
      (Spec.add exBig (-1) 2 exa (Spec.keepOff exBig (Spec.mul 3 exa exb))) exa) :=
  C41_multiply (by omega) exDom_ok (fun _ _ => exA_rep) (fun _ _ => exB_rep) (fun _ _ => exA_rep)
    (fun _ _ => rfl) 2 (-1) exBig (fun s _ => isSched_seq _ _) (fun s _ => isSched_seq _ _)
    (fun _ _ => 5) (fun _ _ => 9) _ (fun _ i _ hi => by
      have : ∀ i, i < 3 → Ell.productFill exA exB 3 i ≤ 4 := by decide
      exact this i hi) (t := 1) (by omega) (by decide)

example : allGatherVParallel (match Domain.default 3 4 2 .sequential (fun _ => 77) 2 with
    | .ok d => d | _ => Domain.alloc 0 0 0 fun _ => 0) 2 (.ellpack fun _ => exA) 0 = .ub :=
  C41_sequential_overlap (N := 3) (M := 4) (junk := fun _ => 77) (cd := 2) (by omega) (by omega) rfl _ _

end Bml.Props
