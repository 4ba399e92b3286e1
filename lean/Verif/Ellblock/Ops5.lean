import Verif.Ellblock.Ops4

/-!
# Block-ELLPACK: import, export, copies, scaling
-/

set_option linter.unusedSectionVars false

namespace Bml

namespace EllB

variable {R : Type} {E : Prop}

section
variable [AddCommMonoid R] {A : EllB R} {L : Nat → BRow R} {N : Nat} {a : Spec.Mat R}

theorem Is.setNnzb_same (h : A.Is L) {ib n : Nat} (hi : ib < A.NB) (hn : n = (L ib).length) :
    A.setNnzb ib n = .ok A := by
  unfold setNnzb
  rw [Arr.write_ok _ (by rw [h.nz_size]; exact hi), Res.bind_ok]
  have : upd A.nnzb.get ib n = A.nnzb.get := by
    funext k
    by_cases he : k = ib
    · subst he; rw [upd_same, h.nz k hi, hn]
    · rw [upd_ne _ _ he]
  show Res.ok _ = _
  rw [this]

/-- The blocks of `a` with an element above the threshold fit into the block rows. -/
def BlocksFit (big : R → Bool) (bs : Nat → Nat) (NB MB : Nat) (a : Spec.Mat R) : Prop :=
  ∀ ib, ib < NB → ∃ S : Finset Nat, S.card ≤ MB ∧ ∀ jb ii jj, jb < NB → ii < bs ib → jj < bs jb →
    big (a (off bs ib + ii) (off bs jb + jj)) = true → jb ∈ S

theorem blocksFit_of_le {big : R → Bool} {bs : Nat → Nat} {NB MB : Nat} (h : NB ≤ MB)
    (a : Spec.Mat R) : BlocksFit big bs NB MB a :=
  fun _ _ => ⟨Finset.range NB, by rw [Finset.card_range]; exact h,
    fun jb _ _ hjb _ _ _ => Finset.mem_range.2 hjb⟩

/-- Which of the blocks processed so far are kept. -/
theorem partial_step {bs : Nat → Nat} {NB ib jb : Nat} {f f' : Spec.Mat R}
    (hf : ∀ ib' jb' ii jj, ib' < NB → jb' < NB → ii < bs ib' → jj < bs jb' →
      f' (off bs ib' + ii) (off bs jb' + jj) =
        if ib' < ib ∨ (ib' = ib ∧ jb' < jb + 1) then f (off bs ib' + ii) (off bs jb' + jj) else 0)
    {g : Spec.Mat R}
    (hg : ∀ ib' jb' ii jj, ib' < NB → jb' < NB → ii < bs ib' → jj < bs jb' →
      g (off bs ib' + ii) (off bs jb' + jj) =
        if ib' < ib ∨ (ib' = ib ∧ jb' < jb) then f (off bs ib' + ii) (off bs jb' + jj) else 0) :
    ∀ ib' jb' ii jj, ib' < NB → jb' < NB → ii < bs ib' → jj < bs jb' → ¬ (ib' = ib ∧ jb' = jb) →
      f' (off bs ib' + ii) (off bs jb' + jj) = g (off bs ib' + ii) (off bs jb' + jj) := by
  intro ib' jb' ii jj h1 h2 h3 h4 hne
  rw [hf ib' jb' ii jj h1 h2 h3 h4, hg ib' jb' ii jj h1 h2 h3 h4]
  refine if_congr ?_ rfl rfl
  constructor
  · rintro (h | ⟨h, h'⟩)
    · exact Or.inl h
    · refine Or.inr ⟨h, ?_⟩
      have : jb' ≠ jb := fun e => hne ⟨h, e⟩
      omega
  · rintro (h | ⟨h, h'⟩)
    · exact Or.inl h
    · exact Or.inr ⟨h, by omega⟩

/-- The blocks before `(ib,jb)` of a matrix, in the order of the loops. -/
def before (bs : Nat → Nat) (ib jb : Nat) (f : Spec.Mat R) : Spec.Mat R :=
  fun i j => if i < off bs ib ∨ (i < off bs (ib + 1) ∧ j < off bs jb) then f i j else 0

theorem before_eq {bs : Nat → Nat} {ib jb ib' jb' ii jj : Nat} {f : Spec.Mat R}
    (hii : ii < bs ib') (hjj : jj < bs jb') :
    before bs ib jb f (off bs ib' + ii) (off bs jb' + jj) =
      if ib' < ib ∨ (ib' = ib ∧ jb' < jb) then f (off bs ib' + ii) (off bs jb' + jj) else 0 := by
  have key : ∀ {b r n : Nat}, r < bs b → (off bs b + r < off bs n ↔ b < n) := by
    intro b r n hr
    constructor
    · intro h
      by_contra hc
      have := off_mono bs (show n ≤ b by omega)
      omega
    · intro h; exact off_lt h hr
  unfold before
  refine if_congr ?_ rfl rfl
  rw [key hii, key hii, key hjj]
  constructor
  · rintro (h | ⟨h, h'⟩)
    · exact Or.inl h
    · by_cases hlt : ib' < ib
      · exact Or.inl hlt
      · exact Or.inr ⟨by omega, h'⟩
  · rintro (h | ⟨h, h'⟩)
    · exact Or.inl h
    · exact Or.inr ⟨by omega, h'⟩

/-- `bml_import_from_dense`. -/
theorem wp_importDense {g : Glob} {N M : Nat} (h : g.For N M) (hM : M ≤ N)
    {addr : Nat → Nat → Nat} (big : R → Bool) {dense : Arr R} {junk : Nat → R}
    (hd : ∀ i j, i < N → j < N → addr i j < dense.size) :
    ∃ g' b, getBlockSizes g N M = .ok (g', b) ∧ g'.Set N b ∧
      (BlocksFit big b.get g'.nb g'.mb (fun i j => dense.get (addr i j)) →
      (importDense g addr big N M dense junk).wp E (fun r => r.1 = g' ∧ ∃ L, r.2.Rows N L
        (keepBlk b.get big (fun i j => dense.get (addr i j))) ∧ r.2.Clean ∧
        Same (empty N M g'.nb g'.mb ⟨g'.nb, b.get⟩ : EllB R) r.2)) := by
  classical
  obtain ⟨g', b, e, hs, e'⟩ := zeroMatrix_eq (R := R) h hM
  refine ⟨g', b, e', hs, fun hfit => ?_⟩
  unfold importDense
  rw [e, Res.bind_ok]
  simp only [Res.wp_bind]
  set f : Spec.Mat R := keepBlk b.get big (fun i j => dense.get (addr i j)) with hf
  have hsum : off b.get g'.nb = N := hs.sum
  refine Res.wp_mono (wp_offsets (bs := ⟨g'.nb, b.get⟩) (NB := g'.nb) le_rfl hs.nb) ?_
  rintro o ⟨ho, hov⟩
  simp only at hov
  refine wp_loop' (n := g'.nb) (fun n (A' : EllB R) => ∃ L, A'.Rows N L (before b.get n 0 f) ∧
      A'.Clean ∧ Same (empty N M g'.nb g'.mb ⟨g'.nb, b.get⟩ : EllB R) A' ∧
      ∀ ib, n ≤ ib → L ib = [])
    ⟨fun _ => [], (hs.empty_rows M).congr ?_, empty_clean, Same.refl _, fun _ _ => rfl⟩ ?_ ?_
  · intro i j _ _
    unfold before
    rw [if_neg (by rw [off_zero]; omega)]
  · rintro ib hib A' ⟨L, hR, hc, hsame, hL⟩
    have e3 : A'.NB = g'.nb := hsame.NB
    have hib' : ib < A'.NB := by rw [e3]; exact hib
    rw [hR.is.setNnzb_same hib' (by rw [hL ib le_rfl]; rfl), Res.bind_ok]
    obtain ⟨S, hS, hSm⟩ := hfit ib hib
    rw [e3]
    refine wp_loop' (fun n (A' : EllB R) => ∃ L, A'.Rows N L (before b.get ib n f) ∧
      A'.Clean ∧ Same (empty N M g'.nb g'.mb ⟨g'.nb, b.get⟩ : EllB R) A' ∧
      (∀ ib', ib + 1 ≤ ib' → L ib' = []) ∧ (∀ c ∈ (L ib).map Prod.fst, c < n ∧ c ∈ S))
      ⟨L, hR, hc, hsame, fun ib' h1 => hL ib' (by omega), by rw [hL ib le_rfl]; simp⟩ ?_ ?_
    · rintro jb hjb A2 ⟨L2, hR2, hc2, hs2, hL2, hcol⟩
      have e3 : A2.NB = g'.nb := hs2.NB
      have e4 : A2.MB = g'.mb := hs2.MB
      have e5 : A2.bsize = ⟨g'.nb, b.get⟩ := hs2.bsize
      have hib2 : ib < A2.NB := by rw [e3]; exact hib
      have hjb2 : jb < A2.NB := by rw [e3]; exact hjb
      rw [hR2.is.bsize_eq hib2, Res.bind_ok, hR2.is.bsize_eq hjb2, Res.bind_ok, e5]
      simp only
      obtain ⟨blk, eb, hb1, hb2⟩ := Res.wp_exists (wp_fill (E := False) (n := b.get ib)
        (m := b.get jb) (b := (⟨b.get ib * b.get jb, junk⟩ : Arr R)) rfl
        (f := fun ii jj => do
          let oi ← o.read ib
          let oj ← o.read jb
          dense.read (addr (oi + ii) (oj + jj)))
        (g := fun ii jj => dense.get (addr (off b.get ib + ii) (off b.get jb + jj))) (by
          intro ii jj hii hjj
          rw [Arr.read_ok (by omega), Res.bind_ok, Arr.read_ok (by omega), Res.bind_ok,
            hov ib hib, hov jb hjb]
          refine Arr.read_ok (hd _ _ ?_ ?_)
          · rw [← hsum]; exact off_lt hib hii
          · rw [← hsum]; exact off_lt hjb hjj))
      simp only [bind_assoc] at eb
      rw [eb, Res.bind_ok]
      obtain ⟨above, eab, habove⟩ := anyBig_eq (big := big) (v := blk) (o := 0)
        (n := b.get ib * b.get jb) (by omega)
      rw [eab, Res.bind_ok]
      have hab : above = true ↔ ∃ ii jj, ii < b.get ib ∧ jj < b.get jb ∧
          big (dense.get (addr (off b.get ib + ii) (off b.get jb + jj))) = true := by
        rw [habove]
        simp only [Nat.zero_add]
        rw [exists_flat (fun k => big (blk.get k) = true)]
        constructor
        · rintro ⟨ii, jj, h1, h2, h3⟩
          exact ⟨ii, jj, h1, h2, by rw [← hb2 ii jj h1 h2]; exact h3⟩
        · rintro ⟨ii, jj, h1, h2, h3⟩
          exact ⟨ii, jj, h1, h2, by rw [hb2 ii jj h1 h2]; exact h3⟩
      have hkeep : ∀ ii jj, ii < b.get ib → jj < b.get jb →
          f (off b.get ib + ii) (off b.get jb + jj) =
            if above = true then dense.get (addr (off b.get ib + ii) (off b.get jb + jj)) else 0 := by
        intro ii jj h1 h2
        rw [hf, keepBlk_eq h1 h2]
        exact if_congr hab.symm rfl rfl
      have hag : A2.AgreeOff ib jb (before b.get ib jb f) (before b.get ib (jb + 1) f) := by
        intro ib' jb' ii jj h1 h2 h3 h4 hne
        rw [e5] at h3 h4 ⊢
        exact partial_step (bs := b.get) (NB := A2.NB) (fun _ _ _ _ _ _ q1 q2 => before_eq q1 q2)
          (fun _ _ _ _ _ _ q1 q2 => before_eq q1 q2) ib' jb' ii jj h1 h2 h3 h4 hne
      by_cases ha : above = true
      · rw [if_pos ha, hR2.is.nnzb_eq hib2, Res.bind_ok]
        unfold copyNew
        rw [if_pos (by omega), Res.bind_ok]
        simp only [ROWMAJOR]
        have hjS : jb ∈ S := by
          obtain ⟨ii, jj, h1, h2, h3⟩ := hab.1 ha
          exact hSm jb ii jj hjb h1 h2 h3
        have hn : jb ∉ (L2 ib).map Prod.fst := fun hm => by
          have := (hcol jb hm).1
          omega
        have hcap : (L2 ib).length < A2.MB := by
          have := length_lt_of_subset (hR2.good ib hib2).nodup (fun c hc => (hcol c hc).2) hn hjS
          rw [List.length_map] at this
          rw [e4]; omega
        rw [hR2.is.append_wp hib2 hcap]
        have hw := hR2.add (b := ⟨b.get ib * b.get jb, blk.get⟩) hib2 hjb2 hn hcap (by rw [e5])
          (a' := before b.get ib (jb + 1) f) (by
            intro ii jj h1 h2
            rw [e5] at h1 h2 ⊢
            simp only at h1 h2 ⊢
            rw [before_eq h1 h2, if_pos (Or.inr ⟨rfl, by omega⟩), hb2 ii jj h1 h2,
              hkeep ii jj h1 h2, if_pos ha]) hag
        refine ⟨_, hw.rows, hw.clean hc2, hs2.trans hw.same, ?_, ?_⟩
        · intro ib' h1
          rw [hw.other ib' (by omega)]
          exact hL2 ib' h1
        · intro c hc
          rw [hw.cols, if_neg hn] at hc
          rcases List.mem_append.1 hc with hc | hc
          · have := hcol c hc
            exact ⟨by omega, this.2⟩
          · simp at hc
            subst hc
            exact ⟨by omega, hjS⟩
      · rw [if_neg ha, Res.wp_pure]
        refine ⟨L2, hR2.congr ?_, hc2, hs2, hL2, fun c hc => ?_⟩
        · intro i j hi hj
          obtain ⟨ib', ii, h1, h2, rfl⟩ := hR2.surj hi
          obtain ⟨jb', jj, h3, h4, rfl⟩ := hR2.surj hj
          by_cases he : ib' = ib ∧ jb' = jb
          · obtain ⟨rfl, rfl⟩ := he
            rw [e5] at h2 h4 ⊢
            simp only at h2 h4 ⊢
            rw [before_eq h2 h4, before_eq h2 h4, if_neg (by omega),
              if_pos (Or.inr ⟨rfl, by omega⟩), hkeep ii jj h2 h4, if_neg ha]
          · exact (hag ib' jb' ii jj h1 h3 h2 h4 he).symm
        · have := hcol c hc
          exact ⟨by omega, this.2⟩
    · rintro A2 ⟨L2, hR2, hc2, hs2, hL2, -⟩
      refine ⟨L2, hR2.congr ?_, hc2, hs2, hL2⟩
      intro i j hi hj
      unfold before
      refine if_congr ?_ rfl rfl
      rw [off_zero, hsum]
      constructor
      · rintro (h | h)
        · exact Or.inl (Nat.lt_of_lt_of_le h (off_mono _ (by omega)))
        · exact Or.inl h.1
      · rintro (h | h)
        · exact Or.inr ⟨h, hj⟩
        · omega
  · rintro A' ⟨L, hR, hc, hsame, -⟩
    rw [Res.wp_pure]
    refine ⟨rfl, L, hR.congr ?_, hc, hsame⟩
    intro i j hi _
    unfold before
    rw [if_pos (Or.inl (by rw [hsum]; exact hi))]

/-- `bml_export_to_dense`. -/
theorem Rows.wp_exportDense (h : A.Rows N L a) (hN : 0 < N) (hpos : ∀ ib, ib < A.NB →
      0 < A.bsize.get ib) {addr : Nat → Nat → Nat}
    (hlt : ∀ i j, i < N → j < N → addr i j < N * N)
    (hinj : ∀ i j i' j', i < N → j < N → i' < N → j' < N → addr i j = addr i' j' →
      i = i' ∧ j = j') :
    (exportDense addr A).wp E (fun d => d.size = N * N ∧ ∀ i j, i < N → j < N →
      d.get (addr i j) = a i j) := by
  have hNB := h.NB_pos hN
  unfold exportDense
  rw [h.dim, if_neg (by omega)]
  simp only [Res.wp_bind]
  refine Res.wp_mono (wp_offsets (by rw [h.is.bs_size]) hNB) ?_
  rintro o ⟨ho, hov⟩
  refine wp_loopFrom (fun _ (_ : Unit) => True) (by omega) trivial ?_ ?_
  · intro ib h1 h2 _ _
    rw [Arr.read_ok (by omega), Res.bind_ok, hov ib h2, if_pos]
    · trivial
    · have := off_lt (bs := A.bsize.get) h2 (hpos ib h2)
      rw [h.N_eq] at this
      omega
  rintro _ -
  refine wp_loop' (fun n (d : Arr R) => d.size = N * N ∧ ∀ ib jb ii jj, ib < A.NB → jb < A.NB →
    ii < A.bsize.get ib → jj < A.bsize.get jb →
    d.get (addr (off A.bsize.get ib + ii) (off A.bsize.get jb + jj)) =
      if ib < n then a (off A.bsize.get ib + ii) (off A.bsize.get jb + jj) else 0)
    ⟨rfl, fun ib jb ii jj _ _ _ _ => by rw [if_neg (by omega)]⟩ ?_ ?_
  · rintro ib hib d ⟨h1, h2⟩
    have hg := h.good ib hib
    rw [h.is.eachIdx_eq hib _ _ (fun p d => loop2 (A.bsize.get ib) (A.bsize.get p.1) d
      fun ii jj d => do
        let oi ← o.read ib
        let oj ← o.read p.1
        let v ← p.2.read (ROWMAJOR ii jj (A.bsize.get ib) (A.bsize.get p.1))
        d.write (addr (oi + ii) (oj + jj)) v) (by
      intro jp jb b s hs
      rw [h.is.blockAssert_eq hib hs, Res.bind_ok, h.is.bsize_eq hib, Res.bind_ok,
        h.is.bsize_eq (hg.lt (jb, b) (List.mem_of_getElem? hs)), Res.bind_ok])]
    refine wp_forList (fun done (d : Arr R) => d.size = N * N ∧ ∀ ib' jb' ii jj, ib' < A.NB →
      jb' < A.NB → ii < A.bsize.get ib' → jj < A.bsize.get jb' →
      d.get (addr (off A.bsize.get ib' + ii) (off A.bsize.get jb' + jj)) =
        if ib' < ib ∨ (ib' = ib ∧ jb' ∈ done.map Prod.fst) then
          a (off A.bsize.get ib' + ii) (off A.bsize.get jb' + jj) else 0)
      ⟨h1, fun ib' jb' ii jj q1 q2 q3 q4 => (h2 ib' jb' ii jj q1 q2 q3 q4).trans
        (if_congr (by simp) rfl rfl)⟩ ?_ ?_
    · rintro pre ⟨jb, b⟩ post hl d' ⟨h3, h4⟩
      have hm : (jb, b) ∈ L ib := by rw [hl]; simp
      have hjb : jb < A.NB := hg.lt _ hm
      refine wp_loop2 (fun i0 j0 (d : Arr R) => d.size = N * N ∧ ∀ ib' jb' ii jj, ib' < A.NB →
        jb' < A.NB → ii < A.bsize.get ib' → jj < A.bsize.get jb' →
        d.get (addr (off A.bsize.get ib' + ii) (off A.bsize.get jb' + jj)) =
          if ib' < ib ∨ (ib' = ib ∧ jb' ∈ pre.map Prod.fst) ∨
            (ib' = ib ∧ jb' = jb ∧ (ii < i0 ∨ (ii = i0 ∧ jj < j0))) then
            a (off A.bsize.get ib' + ii) (off A.bsize.get jb' + jj) else 0)
        ⟨h3, fun ib' jb' ii jj q1 q2 q3 q4 => (h4 ib' jb' ii jj q1 q2 q3 q4).trans
          (if_congr (by simp) rfl rfl)⟩ ?_ ?_ ?_
      · rintro ii jj hii hjj d2 ⟨h5, h6⟩
        have l1 := off_lt hib hii
        have l2 := off_lt hjb hjj
        rw [h.N_eq] at l1 l2
        simp only at hjj
        simp only [ROWMAJOR]
        rw [Arr.read_ok (by omega), Res.bind_ok, Arr.read_ok (by omega), Res.bind_ok,
          Arr.read_ok (Nat.lt_of_lt_of_le (addr_lt hii hjj) (hg.size _ hm)), Res.bind_ok,
          hov ib hib, hov jb hjb]
        simp only [Arr.wp_write]
        refine ⟨by rw [h5]; exact hlt _ _ l1 l2, h5, ?_⟩
        intro ib' jb' ii' jj' q1 q2 q3 q4
        have l1' := off_lt q1 q3
        have l2' := off_lt q2 q4
        rw [h.N_eq] at l1' l2'
        by_cases he : ib' = ib ∧ ii' = ii ∧ jb' = jb ∧ jj' = jj
        · obtain ⟨rfl, rfl, rfl, rfl⟩ := he
          rw [upd_same, if_pos (Or.inr (Or.inr ⟨rfl, rfl, Or.inr ⟨rfl, by omega⟩⟩)),
            ← h.den ib' jb' ii' jj' hib hjb hii hjj, val_of_mem hg.nodup hm]
        · rw [upd_ne]
          · rw [h6 ib' jb' ii' jj' q1 q2 q3 q4]
            refine if_congr ?_ rfl rfl
            constructor
            · rintro (h | h | ⟨e1, e2, h⟩)
              · exact Or.inl h
              · exact Or.inr (Or.inl h)
              · exact Or.inr (Or.inr ⟨e1, e2, by omega⟩)
            · rintro (h | h | ⟨e1, e2, h⟩)
              · exact Or.inl h
              · exact Or.inr (Or.inl h)
              · refine Or.inr (Or.inr ⟨e1, e2, ?_⟩)
                have : ¬ (ii' = ii ∧ jj' = jj) := fun e => he ⟨e1, e.1, e2, e.2⟩
                omega
          · intro hh
            obtain ⟨e1, e2⟩ := hinj _ _ _ _ l1' l2' l1 l2 hh
            obtain ⟨e3, e4⟩ := off_inj q3 hii e1
            obtain ⟨e5, e6⟩ := off_inj q4 hjj e2
            exact he ⟨e3, e4, e5, e6⟩
      · rintro ii d2 hii ⟨h5, h6⟩
        refine ⟨h5, fun ib' jb' ii' jj' q1 q2 q3 q4 => ?_⟩
        rw [h6 ib' jb' ii' jj' q1 q2 q3 q4]
        refine if_congr ?_ rfl rfl
        constructor
        · rintro (h | h | ⟨e1, e2, h⟩)
          · exact Or.inl h
          · exact Or.inr (Or.inl h)
          · exact Or.inr (Or.inr ⟨e1, e2, by omega⟩)
        · rintro (h | h | ⟨e1, e2, h⟩)
          · exact Or.inl h
          · exact Or.inr (Or.inl h)
          · subst e2
            refine Or.inr (Or.inr ⟨e1, rfl, ?_⟩)
            simp only
            omega
      · rintro d2 ⟨h5, h6⟩
        refine ⟨h5, fun ib' jb' ii' jj' q1 q2 q3 q4 => ?_⟩
        rw [h6 ib' jb' ii' jj' q1 q2 q3 q4]
        refine if_congr ?_ rfl rfl
        simp only [List.map_append, List.map_cons, List.map_nil, List.mem_append,
          List.mem_singleton]
        constructor
        · rintro (h | ⟨e1, h⟩ | ⟨e1, e2, h⟩)
          · exact Or.inl h
          · exact Or.inr ⟨e1, Or.inl h⟩
          · exact Or.inr ⟨e1, Or.inr e2⟩
        · rintro (h | ⟨e1, h | h⟩)
          · exact Or.inl h
          · exact Or.inr (Or.inl ⟨e1, h⟩)
          · subst e1
            exact Or.inr (Or.inr ⟨rfl, h, Or.inl q3⟩)
    · rintro d' ⟨h3, h4⟩
      refine ⟨h3, fun ib' jb' ii jj q1 q2 q3 q4 => ?_⟩
      rw [h4 ib' jb' ii jj q1 q2 q3 q4]
      by_cases hl : ib' < ib
      · rw [if_pos (Or.inl hl), if_pos (by omega)]
      · by_cases he : ib' = ib
        · subst he
          rw [if_pos (show ib' < ib' + 1 by omega)]
          split
          · rfl
          · next hc =>
            rw [← h.den ib' jb' ii jj q1 q2 q3 q4, val_of_not_mem]
            intro hm; exact hc (Or.inr ⟨rfl, hm⟩)
        · rw [if_neg (by rintro (h | ⟨h, -⟩) <;> omega), if_neg (by omega)]
  · rintro d ⟨h1, h2⟩
    refine ⟨h1, fun i j hi hj => ?_⟩
    obtain ⟨ib, ii, q1, q2, rfl⟩ := h.surj hi
    obtain ⟨jb, jj, q3, q4, rfl⟩ := h.surj hj
    rw [h2 ib jb ii jj q1 q3 q2 q4, if_pos q1]

end

end EllB

end Bml
