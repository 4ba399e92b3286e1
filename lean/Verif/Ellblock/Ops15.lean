import Verif.Ellblock.Ops14

/-!
# Block-ELLPACK: products
-/

set_option linter.unusedSectionVars false

namespace Bml

namespace EllB

variable {R : Type} {E : Prop}

/-! ## Matrices whose row counts are not yet written -/

/-- The matrix with the row counts that belong to `L`. -/
def withLens (C : EllB R) (L : Nat → BRow R) : EllB R :=
  { C with nnzb := ⟨C.NB, fun ib => (L ib).length⟩ }

/-- `L` is stored in `C`, except that the row counts of `C` may differ. -/
def Part (C : EllB R) (L : Nat → BRow R) : Prop := (C.withLens L).Is L

section
variable {C : EllB R} {L : Nat → BRow R}

theorem Is.part (h : C.Is L) : C.Part L :=
  ⟨h.bs_size, rfl, h.ix_size, h.ptr_size, fun _ _ => rfl, h.le, h.slot, h.own, h.fresh⟩

theorem Part.is (h : C.Part L) (hs : C.nnzb.size = C.NB)
    (hn : ∀ ib, ib < C.NB → C.nnzb.get ib = (L ib).length) : C.Is L :=
  ⟨h.bs_size, hs, h.ix_size, h.ptr_size, hn, h.le, h.slot, h.own, h.fresh⟩

theorem Part.drop (h : C.Part L) (ib : Nat) : C.Part (upd L ib []) := by
  have hl : ∀ ib', (upd L ib [] ib').length ≤ (L ib').length := by
    intro ib'
    by_cases hi : ib' = ib
    · subst hi; rw [upd_same]; simp
    · rw [upd_ne _ _ hi]
  refine ⟨h.bs_size, rfl, h.ix_size, h.ptr_size, fun _ _ => rfl,
    fun ib' hib' => le_trans (hl ib') (h.le ib' hib'), ?_, ?_, h.fresh⟩
  · intro ib' jp jb b hib' hs
    by_cases hi : ib' = ib
    · subst hi; rw [upd_same] at hs; simp at hs
    · rw [upd_ne _ _ hi] at hs
      exact h.slot ib' jp jb b hib' hs
  · intro ib1 jp1 ib2 jp2 h1 h2 h3 h4
    exact h.own ib1 jp1 ib2 jp2 h1 (lt_of_lt_of_le h2 (hl _)) h3 (lt_of_lt_of_le h4 (hl _))

theorem Part.nnzb (h : C.Part L) (nz : Arr Nat) : ({ C with nnzb := nz } : EllB R).Part L :=
  ⟨h.bs_size, rfl, h.ix_size, h.ptr_size, fun _ _ => rfl, h.le, h.slot, h.own, h.fresh⟩

/-- Storing a block behind the blocks of row `ib`. -/
theorem Part.put (h : C.Part L) {ib : Nat} (hib : ib < C.NB) (hcap : (L ib).length < C.MB)
    (jb : Nat) {n : Nat} {x : Arr R} (hx : n ≤ x.size) :
    ∃ C', putProd ib (L ib).length jb n x C = .ok C' ∧ Same C C' ∧ C'.nnzb = C.nnzb ∧
      C'.Part (upd L ib (L ib ++ [(jb, ⟨n, x.get⟩)])) ∧
      ((C.withLens L).Clean → (C'.withLens (upd L ib (L ib ++ [(jb, ⟨n, x.get⟩)]))).Clean) := by
  have ha : ib * C.MB + (L ib).length < C.ptr.size := by
    have := h.ptr_size
    rw [show (C.withLens L).ptr = C.ptr from rfl, show (C.withLens L).NB = C.NB from rfl,
      show (C.withLens L).MB = C.MB from rfl] at this
    rw [this]; exact addr_lt hib hcap
  have ha' : ib * C.MB + (L ib).length < C.indexb.size := by
    have := h.ix_size
    rw [show (C.withLens L).indexb = C.indexb from rfl, show (C.withLens L).NB = C.NB from rfl,
      show (C.withLens L).MB = C.MB from rfl] at this
    rw [this]; exact addr_lt hib hcap
  refine ⟨{ C with
    ptr := ⟨C.ptr.size, upd C.ptr.get (ib * C.MB + (L ib).length) (some C.next)⟩
    heap := upd C.heap C.next (some ⟨n, x.get⟩)
    next := C.next + 1
    indexb := ⟨C.indexb.size, upd C.indexb.get (ib * C.MB + (L ib).length) jb⟩ }, ?_, ?_, rfl, ?_, ?_⟩
  · unfold putProd alloc setIndex copyNew
    simp only [ROWMAJOR]
    rw [if_pos hx, Res.bind_ok, Arr.write_ok _ ha]
    simp only [Res.bind_ok, Res.pure_eq]
    rw [Arr.write_ok _ ha']
    rfl
  · exact ⟨rfl, rfl, rfl, rfl, rfl⟩
  · have := (show (C.withLens L).Is L from h).app hib hcap jb ⟨n, x.get⟩
    exact ⟨this.bs_size, rfl, this.ix_size, this.ptr_size, fun _ _ => rfl, this.le, this.slot,
      this.own, this.fresh⟩
  · intro hc
    have := hc.app (show (C.withLens L).Is L from h) hib hcap jb ⟨n, x.get⟩
    intro ib' jp' h1 h2 h3
    refine this ib' jp' h1 ?_ h3
    show upd (fun ib => (L ib).length) ib ((L ib).length + 1) ib' ≤ jp'
    have h2' : (upd L ib (L ib ++ [(jb, (⟨n, x.get⟩ : Arr R))]) ib').length ≤ jp' := h2
    by_cases hi : ib' = ib
    · subst hi
      rw [upd_same] at h2' ⊢
      simpa using h2'
    · rw [upd_ne _ _ hi] at h2' ⊢
      exact h2'

end

section
variable [CommRing R]

/-! ## One row -/

/-- Row `ib` of `C` is being replaced: `K` has been stored, the other rows are those of `L`. -/
structure Refill (C : EllB R) (L : Nat → BRow R) (ib : Nat) (v : Nat → Nat → R) (K : List Nat)
    (C' : EllB R) (l : BRow R) : Prop where
  same : Same C C'
  nz : C'.nnzb = C.nnzb
  part : C'.Part (upd L ib l)
  ok : RowOK C.bsize.get ib K v l
  sizes : ∀ p ∈ l, p.2.size = C.bsize.get ib * C.bsize.get p.1
  clean : (C.withLens L).Clean → L ib = [] → (C'.withLens (upd L ib l)).Clean

/-- Storing the row: `put` and `setNnzb`. -/
theorem wp_refill {C : EllB R} {L : Nat → BRow R} (h : C.Part L) (hnz : C.nnzb.size = C.NB)
    {ib : Nat} (hib : ib < C.NB) {n2 : Nat} {s : BScr R} {J : List Nat} {v : Nat → Nat → R}
    (hJ : s.Holds C.NB n2 (fun jb => C.bsize.get ib * C.bsize.get jb) J v)
    (hn2 : ∀ jb, jb < C.NB → C.bsize.get ib * C.bsize.get jb ≤ n2) (big : R → Bool)
    (hlen : J.length ≤ C.MB) :
    (do let (C', s, ll) ← flush big true (fun _ => n2) (putProd ib) C.bsize ib J.length C s
        let C' ← C'.setNnzb ib ll
        pure (C', s) : Res (EllB R × BScr R)).wp E (fun st => st.2.Clean C.NB n2 ∧ ∃ l, Same C st.1 ∧
      st.1.nnzb = ⟨C.nnzb.size, upd C.nnzb.get ib l.length⟩ ∧ st.1.Part (upd L ib l) ∧
      RowOK C.bsize.get ib
        (kept big true ib (fun jb => C.bsize.get ib * C.bsize.get jb) v J) v l ∧
      (∀ p ∈ l, p.2.size = C.bsize.get ib * C.bsize.get p.1) ∧
      ((C.withLens L).Clean → L ib = [] → (st.1.withLens (upd L ib l)).Clean)) := by
  have hbss : C.bsize.size = C.NB := h.bs_size
  rw [Res.wp_bind]
  have hfl := wp_flush (E := E) hJ hbss hib hn2 big true (wn := fun _ => n2) (fun _ _ => le_refl _)
    (putProd ib) C (fun K C' => ∃ l, Refill C L ib v K C' l) ?_ ?_
  · refine Res.wp_mono hfl ?_
    rintro ⟨C', s', ll⟩ ⟨⟨l, g⟩, g2, g3⟩
    simp only at g g2 g3 ⊢
    unfold setNnzb
    rw [Arr.write_ok _ (by rw [g.nz, hnz]; exact hib)]
    simp only [Res.bind_ok, Res.pure_eq, Res.wp_ok]
    have hll : ll = l.length := by rw [g3, ← g.ok.1, List.length_map]
    refine ⟨g2, l, ⟨g.same.N, g.same.M, g.same.NB, g.same.MB, g.same.bsize⟩, ?_, g.part.nnzb _, g.ok,
      g.sizes, g.clean⟩
    rw [g.nz, hll]
  · exact ⟨[], Same.refl _, rfl, h.drop ib, RowOK.nil _ _ _, by simp, fun hc he => by
      have : upd L ib [] = L := by
        funext k
        by_cases hk : k = ib
        · subst hk; rw [upd_same, he]
        · rw [upd_ne _ _ hk]
      rw [this]; exact hc⟩
  · rintro pre jb post C' x hsp ⟨l, g⟩ hjb hx hv
    have hl : l.length = pre.length := by rw [← g.ok.1, List.length_map]
    have hpl : pre.length < C.MB := by
      have h1 := congrArg List.length hsp
      rw [List.length_append, List.length_cons] at h1
      have h2 : (kept big true ib (fun jb => C.bsize.get ib * C.bsize.get jb) v J).length ≤ J.length :=
        List.length_filter_le _ _
      omega
    obtain ⟨C2, e, q1, q2, q3, q4⟩ := g.part.put (ib := ib) (by rw [g.same.NB]; exact hib)
      (by rw [upd_same, hl, g.same.MB]; exact hpl) jb
      (n := C.bsize.get ib * C.bsize.get jb) (x := x) (by rw [hx]; exact hn2 jb hjb)
    rw [upd_same, hl] at e
    rw [upd_same] at q3 q4
    have eu : ∀ l' : BRow R, upd (upd L ib l) ib l' = upd L ib l' := by
      intro l'
      funext k
      by_cases hk : k = ib
      · subst hk; rw [upd_same, upd_same]
      · rw [upd_ne _ _ hk, upd_ne _ _ hk, upd_ne _ _ hk]
    rw [eu] at q3 q4
    rw [e, Res.wp_ok]
    refine ⟨_, ⟨g.same.trans q1, q2.trans g.nz, q3, g.ok.snoc (le_refl _) hv, ?_, fun hc he => q4 (g.clean hc he)⟩⟩
    intro p hp
    rcases List.mem_append.1 hp with hp | hp
    · exact g.sizes p hp
    · rw [List.mem_singleton.1 hp]

/-! ## All rows -/

/-- The rows in `pre` have been replaced: row `ib` by the blocks of `cols ib` with the values
`v ib`. -/
structure Fill (C : EllB R) (L : Nat → BRow R) (cols : Nat → List Nat) (v : Nat → Nat → Nat → R)
    (pre : List Nat) (C' : EllB R) (L' : Nat → BRow R) : Prop where
  same : Same C C'
  nzs : C'.nnzb.size = C.NB
  part : C'.Part L'
  todo : ∀ ib, ib ∉ pre → L' ib = L ib
  nz : ∀ ib, ib < C.NB → C'.nnzb.get ib = (L' ib).length
  done : ∀ ib, ib ∈ pre → RowOK C.bsize.get ib (cols ib) (v ib) (L' ib) ∧
    ∀ p ∈ L' ib, p.2.size = C.bsize.get ib * C.bsize.get p.1
  clean : C.Clean → (∀ ib, ib < C.NB → L ib = []) → (C'.withLens L').Clean

theorem Fill.start {C : EllB R} {L : Nat → BRow R} (h : C.Is L) (cols : Nat → List Nat)
    (v : Nat → Nat → Nat → R) : Fill C L cols v [] C L :=
  ⟨Same.refl _, h.nz_size, h.part, fun _ _ => rfl, h.nz, by simp, fun hc _ ib jp h1 h2 h3 =>
    hc ib jp h1 (by rw [h.nz ib h1]; exact h2) h3⟩

theorem Fill.is {C C' : EllB R} {L L' : Nat → BRow R} {cols : Nat → List Nat}
    {v : Nat → Nat → Nat → R} {pre : List Nat} (h : Fill C L cols v pre C' L') : C'.Is L' :=
  h.part.is (by rw [h.nzs, h.same.NB]) (by rw [h.same.NB]; exact h.nz)

/-- One more row. -/
theorem Fill.wp_step {C C' : EllB R} {L L' : Nat → BRow R} {cols : Nat → List Nat}
    {v : Nat → Nat → Nat → R} {pre : List Nat} (h : Fill C L cols v pre C' L') {ib : Nat}
    (hib : ib < C.NB) (hnot : ib ∉ pre) {n2 : Nat} {s : BScr R} {J : List Nat}
    (hJ : s.Holds C.NB n2 (fun jb => C.bsize.get ib * C.bsize.get jb) J (v ib))
    (hn2 : ∀ jb, jb < C.NB → C.bsize.get ib * C.bsize.get jb ≤ n2) (big : R → Bool)
    (hlen : J.length ≤ C.MB)
    (hcols : cols ib = kept big true ib (fun jb => C.bsize.get ib * C.bsize.get jb) (v ib) J) :
    (do let (C', s, ll) ← flush big true (fun _ => n2) (putProd ib) C.bsize ib J.length C' s
        let C' ← C'.setNnzb ib ll
        pure (C', s) : Res (EllB R × BScr R)).wp E (fun st => st.2.Clean C.NB n2 ∧
      ∃ L2, Fill C L cols v (pre ++ [ib]) st.1 L2) := by
  have hs := h.same
  have := wp_refill (E := E) h.part (by rw [h.nzs, hs.NB]) (ib := ib) (by rw [hs.NB]; exact hib)
    (n2 := n2) (s := s) (J := J) (v := v ib) (by rw [hs.NB, hs.bsize]; exact hJ)
    (by rw [hs.NB, hs.bsize]; exact hn2) big (by rw [hs.MB]; exact hlen)
  rw [hs.bsize] at this
  refine Res.wp_mono this ?_
  rintro ⟨C2, s2⟩ ⟨g1, l, g2, g3, g4, g5, g6, g7⟩
  rw [hs.NB] at g1
  simp only at g1 g2 g3 g4 g7 ⊢
  refine ⟨g1, upd L' ib l, hs.trans g2, by rw [g3]; exact h.nzs, g4, ?_, ?_, ?_, ?_⟩
  · intro ib' hn
    have hne : ib' ≠ ib := by rintro rfl; exact hn (by simp)
    rw [upd_ne _ _ hne]
    exact h.todo ib' (fun hh => hn (by simp [hh]))
  · intro ib' hib'
    rw [g3]
    simp only
    by_cases hi : ib' = ib
    · subst hi; rw [upd_same, upd_same]
    · rw [upd_ne _ _ hi, upd_ne _ _ hi]; exact h.nz ib' hib'
  · intro ib' hm
    by_cases hi : ib' = ib
    · subst hi
      rw [upd_same, hcols]
      exact ⟨g5, g6⟩
    · rw [upd_ne _ _ hi]
      refine h.done ib' ?_
      simpa [hi] using hm
  · intro hc he
    exact g7 (h.clean hc he) (by rw [h.todo ib hnot]; exact he ib hib)

end

end EllB

end Bml
