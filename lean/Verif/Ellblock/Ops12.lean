import Verif.Ellblock.Ops11

/-!
# Block-ELLPACK: the whole sum
-/

set_option linter.unusedSectionVars false

namespace Bml

namespace EllB

variable {R : Type} {E : Prop} [CommRing R]

theorem sumVal_congr {L LB L' : Nat → BRow R} {ib : Nat} (h : LB ib = L ib) (α β : R) :
    sumVal LB L' α β ib = sumVal L L' α β ib := by
  funext jb k; unfold sumVal; rw [h]

theorem touched_congr {L LB L' : Nat → BRow R} {ib : Nat} (h : LB ib = L ib) (nz : R → Bool)
    (α β : R) : touched nz LB L' α β ib = touched nz L L' α β ib := by
  unfold touched; rw [h]

theorem addCols_congr {L LB L' : Nat → BRow R} {ib : Nat} (h : LB ib = L ib) (nz big : R → Bool)
    (bs : Nat → Nat) (α β : R) : addCols nz big bs LB L' α β ib = addCols nz big bs L L' α β ib := by
  unfold addCols; rw [sumVal_congr h, touched_congr h]

/-- What is known of a row that is done. -/
structure AddDone (nz big : R → Bool) (A : EllB R) (L L' : Nat → BRow R) (T : Nat → Option (Arr R))
    (α β : R) (ib : Nat) (l : BRow R) (T' : Nat → Option (Arr R)) : Prop where
  ok : RowOK A.bsize.get ib (addCols nz big A.bsize.get L L' α β ib) (sumVal L L' α β ib) l
  nodup : (touched nz L L' α β ib).Nodup
  lt : ∀ c ∈ touched nz L L' α β ib, c < A.NB
  out : ∀ jb, jb ∉ touched nz L L' α β ib → ∀ k, sumVal L L' α β ib jb k = 0
  tr : ∀ jp, jp < A.MB → (addCols nz big A.bsize.get L L' α β ib).length ≤ jp →
    T' (ib * A.MB + jp) = T (ib * A.MB + jp)
  size : ∀ jp b, jp < (addCols nz big A.bsize.get L L' α β ib).length →
    T' (ib * A.MB + jp) = some b →
    (T (ib * A.MB + jp) = none ∧ ∃ c ∈ addCols nz big A.bsize.get L L' α β ib,
      b.size = A.bsize.get ib * A.bsize.get c) ∨
    ∃ d, T (ib * A.MB + jp) = some d ∧ d.size = b.size

theorem Rows.wp_add_rows {A B : EllB R} {L L' : Nat → BRow R} {N : Nat} {a b : Spec.Mat R}
    {T : Nat → Option (Arr R)} (h : A.Rows N L a) (hB : B.Rows N L' b) (hS : A.Slots T)
    (hNB : B.NB = A.NB) (hMB : B.MB = A.MB) (hbs : B.bsize = A.bsize) (h0 : 0 < A.NB)
    {sc : Sched} (hsc : IsSched 0 A.NB sc) {nz : R → Bool} (hnz : ∀ c, nz c = false → c = 0)
    (big : R → Bool) (junk : Nat → R) (α β : R)
    (hlen : ∀ ib, ib < A.NB → (addCols nz big A.bsize.get L L' α β ib).length ≤ A.MB)
    (hfit : ∀ ib jp c d, ib < A.NB → (addCols nz big A.bsize.get L L' α β ib)[jp]? = some c →
      T (ib * A.MB + jp) = some d → A.bsize.get ib * A.bsize.get c ≤ d.size) :
    (EllB.add sc nz big junk A B α β).wp E (fun A' => Same A A' ∧ ∃ LB T', A'.Is LB ∧ A'.Slots T' ∧
      ∀ ib, ib < A.NB → AddDone nz big A L L' T α β ib (LB ib) T') := by
  unfold EllB.add
  rw [if_neg (not_not.2 hNB.symm)]
  rw [Arr.read_ok (by rw [h.is.bs_size]; exact h0), Res.bind_ok,
    Arr.read_ok (by rw [hbs, h.is.bs_size]; exact h0), Res.bind_ok,
    if_neg (not_not.2 (by rw [hbs]))]
  obtain ⟨m, em, hm⟩ := maxBsize_spec (A := A) h.is.bs_size
  rw [em, Res.bind_ok, Res.wp_bind]
  refine wp_forList (fun pre (st : EllB R × (Nat → BScr R)) => Same A st.1 ∧
    (∀ t, (st.2 t).Clean A.NB (m * m)) ∧ st.1.nnzb.size = A.NB ∧
    st.1.indexb.size = A.NB * A.MB ∧ st.1.ptr.size = A.NB * A.MB ∧
    ∃ (LB : Nat → BRow R) (T' : Nat → Option (Arr R)), st.1.Slots T' ∧ (∀ ib, ib < A.NB → st.1.nnzb.get ib = (LB ib).length) ∧
      (∀ ib, ib < A.NB → st.1.RowT T' ib (LB ib)) ∧
      (∀ ib, ib < A.NB → ib ∈ pre.map Prod.snd →
        AddDone nz big A L L' T α β ib (LB ib) T') ∧
      (∀ ib, ib < A.NB → ib ∉ pre.map Prod.snd → LB ib = L ib ∧
        ∀ jp, jp < A.MB → T' (ib * A.MB + jp) = T (ib * A.MB + jp))) ?_ ?_ ?_
  · exact ⟨Same.refl _, fun _ => BScr.clean_clearScr _ _, h.is.nz_size, h.is.ix_size, h.is.ptr_size,
      L, T, hS, h.is.nz, fun ib hib => h.is.rowT hS hib, by simp, fun _ _ _ => ⟨rfl, fun _ _ => rfl⟩⟩
  · rintro pre ⟨t, ib⟩ post hsplit ⟨A1, ws⟩ ⟨hs, hc, z1, z2, z3, LB, T1, hS1, hn1, hr1, hd1, hu1⟩
    simp only at hs hc z1 z2 z3 hS1 hn1 hr1 hd1 hu1 ⊢
    obtain ⟨-, hib, hnot⟩ := sched_split hsc hsplit
    simp only at hib hnot
    obtain ⟨eL, eT⟩ := hu1 ib hib hnot
    have hI1 : A1.Is LB := hS1.is (by rw [hs.bsize, h.is.bs_size, hs.NB]) (by rw [z1, hs.NB])
      (by rw [z2, hs.NB, hs.MB]) (by rw [z3, hs.NB, hs.MB])
      (by rw [hs.NB]; exact hn1) (by rw [hs.NB]; exact hr1)
    have eC := addCols_congr (L' := L') eL nz big A.bsize.get α β
    have eJ := touched_congr (L' := L') eL nz α β
    have eV := sumVal_congr (L' := L') eL α β
    have hrow := wp_addRow (E := E) (A0 := A) (nz := nz) hs hI1 hB.is hS1 hNB hMB hib
      (by rw [eL]; exact h.good ib hib)
      (by rw [← hNB, ← hbs]; exact hB.good ib (by rw [hNB]; exact hib))
      (fun jb hjb => Nat.mul_le_mul (hm ib hib) (hm jb hjb)) (hc t) hnz big junk α β
      (by rw [eC]; exact hlen ib hib)
      (by
        rw [eC]
        intro jp c d h1 h2
        refine hfit ib jp c d hib h1 ?_
        rw [← eT jp ?_]
        · exact h2
        · have := (List.getElem?_eq_some_iff.1 h1).1
          have := hlen ib hib
          omega)
    rw [Res.wp_bind]
    refine Res.wp_mono hrow ?_
    rintro ⟨A2, s2⟩ ⟨g1, T2, l, g2, g3, g4, g5⟩
    rw [eC, eV] at g2
    rw [eJ] at g3 g4 g5
    rw [eV] at g5
    simp only at g1 g2 ⊢
    rw [Res.pure_eq, Res.wp_ok]
    set K := addCols nz big A.bsize.get L L' α β ib with hK
    have hs2 : Same A A2 := ⟨g2.same.N.trans hs.N, g2.same.M.trans hs.M, g2.same.NB.trans hs.NB,
      g2.same.MB.trans hs.MB, g2.same.bsize.trans hs.bsize⟩
    have hnz2 : A2.nnzb = ⟨A1.nnzb.size, upd A1.nnzb.get ib K.length⟩ := g2.nz
    have g2ixr : ∀ k, (∀ jp, jp < K.length → k ≠ ib * A.MB + jp) →
        A2.indexb.get k = A1.indexb.get k := by
      intro k hk
      refine g2.ixr k (fun jp hjp => ?_)
      show k ≠ ib * A1.MB + jp
      rw [hs.MB]; exact hk jp hjp
    have g2tr : ∀ k, (∀ jp, jp < K.length → k ≠ ib * A.MB + jp) → T2 k = T1 k := by
      intro k hk
      refine g2.tr k (fun jp hjp => ?_)
      show k ≠ ib * A1.MB + jp
      rw [hs.MB]; exact hk jp hjp
    have hKM : K.length ≤ A.MB := hlen ib hib
    have hother : ∀ ib' jp, ib' ≠ ib → jp < A.MB → ∀ jp', jp' < K.length →
        ib' * A.MB + jp ≠ ib * A.MB + jp' := by
      intro ib' jp hne hjp jp' hjp' he
      exact hne (addr_inj hjp (by omega) he).1
    refine ⟨hs2, ?_, ?_, ?_, ?_, upd LB ib l, T2, g2.slots, ?_, ?_, ?_, ?_⟩
    · intro t'
      by_cases ht : t' = t
      · subst ht; show ((upd ws t' s2) t').Clean _ _; rw [upd_same]; exact g1
      · show ((upd ws t s2) t').Clean _ _; rw [upd_ne _ _ ht]; exact hc t'
    · rw [hnz2]; exact z1
    · rw [g2.ixs]; exact z2
    · rw [g2.ps]; exact z3
    · intro ib' hib'
      rw [hnz2]
      simp only
      by_cases hi : ib' = ib
      · subst hi
        rw [upd_same, upd_same, ← g2.ok.1, List.length_map]
      · rw [upd_ne _ _ hi, upd_ne _ _ hi]; exact hn1 ib' hib'
    · intro ib' hib'
      by_cases hi : ib' = ib
      · subst hi; rw [upd_same]; exact g2.row
      · rw [upd_ne _ _ hi]
        obtain ⟨w1, w2⟩ := hr1 ib' hib'
        refine ⟨by rw [hs2.MB, ← hs.MB]; exact w1, fun jp jb c hs' => ?_⟩
        obtain ⟨w3, w4⟩ := w2 jp jb c hs'
        rw [hs.MB] at w1 w3 w4
        have hjp := (List.getElem?_eq_some_iff.1 hs').1
        have ho := hother ib' jp hi (by omega)
        rw [hs2.MB, g2ixr _ ho, g2tr _ ho]
        exact ⟨w3, w4⟩
    · intro ib' hib' hmem
      by_cases hi : ib' = ib
      · subst hi
        rw [upd_same]
        refine ⟨?_, g3, g4, g5, ?_, ?_⟩
        · have := g2.ok
          rw [hs.bsize] at this
          exact this
        · intro jp hjp hle
          rw [g2tr, eT jp hjp]
          intro jp' hjp'
          rw [← hK] at hle
          omega
        · intro jp c hjp hTc
          have hw := g2.size jp c hjp
          simp only at hw
          rw [hs.MB, hs.bsize, eT jp (lt_of_lt_of_le hjp hKM)] at hw
          exact hw hTc
      · rw [upd_ne _ _ hi]
        have hm' : ib' ∈ pre.map Prod.snd := by
          simp only [List.map_append, List.map_cons, List.map_nil, List.mem_append,
            List.mem_singleton] at hmem
          rcases hmem with hmem | hmem
          · exact hmem
          · exact absurd hmem hi
        have hd := hd1 ib' hib' hm'
        refine ⟨hd.ok, hd.nodup, hd.lt, hd.out, ?_, ?_⟩
        · intro jp hjp hle
          rw [g2tr _ (hother ib' jp hi hjp)]
          exact hd.tr jp hjp hle
        · intro jp c hjp hTc
          refine hd.size jp c hjp ?_
          rw [← g2tr _ (hother ib' jp hi (by have := hlen ib' hib'; omega))]
          exact hTc
    · intro ib' hib' hmem
      have hi : ib' ≠ ib := by
        rintro rfl
        exact hmem (by simp)
      have hm' : ib' ∉ pre.map Prod.snd := fun hh => hmem (by
        rw [List.map_append]; exact List.mem_append_left _ hh)
      obtain ⟨w1, w2⟩ := hu1 ib' hib' hm'
      refine ⟨by rw [upd_ne _ _ hi]; exact w1, fun jp hjp => ?_⟩
      rw [g2tr _ (hother ib' jp hi hjp)]
      exact w2 jp hjp
  · rintro ⟨A1, ws⟩ ⟨hs, hc, z1, z2, z3, LB, T1, hS1, hn1, hr1, hd1, hu1⟩
    simp only at hs z1 z2 z3 hS1 hn1 hr1 hd1 ⊢
    rw [Res.pure_eq, Res.wp_ok]
    refine ⟨hs, LB, T1, ?_, hS1, fun ib hib => hd1 ib hib ((hsc.mem ib).2 ⟨Nat.zero_le _, hib⟩)⟩
    exact hS1.is (by rw [hs.bsize, h.is.bs_size, hs.NB]) (by rw [z1, hs.NB])
      (by rw [z2, hs.NB, hs.MB]) (by rw [z3, hs.NB, hs.MB])
      (by rw [hs.NB]; exact hn1) (by rw [hs.NB]; exact hr1)

/-- The rows of the sum, once they are stored. -/
theorem Rows.added {A A' B : EllB R} {L L' LB : Nat → BRow R} {N : Nat} {a b : Spec.Mat R}
    (h : A.Rows N L a) (hB : B.Rows N L' b) (hNB : B.NB = A.NB) (hbs : B.bsize = A.bsize)
    {T T' : Nat → Option (Arr R)} {nz big : R → Bool} {α β : R} (hs : Same A A') (hI : A'.Is LB)
    (hd : ∀ ib, ib < A.NB → AddDone nz big A L L' T α β ib (LB ib) T') :
    A'.Rows N LB (keepBlk A.bsize.get big fun i j => α * a i j + β * b i j) := by
  classical
  refine ⟨hI, ?_, hs.N.trans h.dim, by rw [hs.bsize, hs.NB]; exact h.N_eq, ?_⟩
  · intro ib hib
    rw [hs.NB] at hib
    have d := hd ib hib
    rw [hs.NB, hs.bsize]
    exact d.ok.good (d.nodup.filter _) (fun c hc => d.lt c (List.mem_filter.1 hc).1)
  · intro ib jb ii jj hib hjb hii hjj
    rw [hs.NB] at hib hjb
    rw [hs.bsize] at hii hjj ⊢
    have d := hd ib hib
    have hv : ∀ ii jj, ii < A.bsize.get ib → jj < A.bsize.get jb →
        sumVal L L' α β ib jb (ii * A.bsize.get jb + jj) =
        α * a (off A.bsize.get ib + ii) (off A.bsize.get jb + jj) +
        β * b (off A.bsize.get ib + ii) (off A.bsize.get jb + jj) := by
      intro ii jj h1 h2
      unfold sumVal
      rw [h.den ib jb ii jj hib hjb h1 h2]
      have := hB.den ib jb ii jj (by rw [hNB]; exact hib) (by rw [hNB]; exact hjb)
        (by rw [hbs]; exact h1) (by rw [hbs]; exact h2)
      rw [hbs] at this
      rw [this]
    have hk : ii * A.bsize.get jb + jj < A.bsize.get ib * A.bsize.get jb := addr_lt hii hjj
    have := d.ok.val_kept d.nodup d.out jb hk
    rw [this, keepBlk_eq hii hjj, hv ii jj hii hjj]
    congr 1
    simp only [Bool.false_eq_true, false_and, false_or]
    rw [eq_iff_iff, exists_flat]
    constructor
    · rintro ⟨i', j', q1, q2, q3⟩
      exact ⟨i', j', q1, q2, by rw [← hv i' j' q1 q2]; exact q3⟩
    · rintro ⟨i', j', q1, q2, q3⟩
      exact ⟨i', j', q1, q2, by rw [hv i' j' q1 q2]; exact q3⟩

/-- `bml_add`. -/
theorem Rows.wp_add {A B : EllB R} {L L' : Nat → BRow R} {N : Nat} {a b : Spec.Mat R}
    {T : Nat → Option (Arr R)} (h : A.Rows N L a) (hB : B.Rows N L' b) (hS : A.Slots T)
    (hNB : B.NB = A.NB) (hMB : B.MB = A.MB) (hbs : B.bsize = A.bsize) (h0 : 0 < A.NB)
    {sc : Sched} (hsc : IsSched 0 A.NB sc) {nz : R → Bool} (hnz : ∀ c, nz c = false → c = 0)
    (big : R → Bool) (junk : Nat → R) (α β : R)
    (hlen : ∀ ib, ib < A.NB → (addCols nz big A.bsize.get L L' α β ib).length ≤ A.MB)
    (hfit : ∀ ib jp c d, ib < A.NB → (addCols nz big A.bsize.get L L' α β ib)[jp]? = some c →
      T (ib * A.MB + jp) = some d → A.bsize.get ib * A.bsize.get c ≤ d.size) :
    (EllB.add sc nz big junk A B α β).wp E (fun A' => Same A A' ∧ ∃ LB T',
      A'.Rows N LB (keepBlk A.bsize.get big fun i j => α * a i j + β * b i j) ∧ A'.Slots T' ∧
      ∀ ib, ib < A.NB → AddDone nz big A L L' T α β ib (LB ib) T') := by
  refine Res.wp_mono (h.wp_add_rows hB hS hNB hMB hbs h0 hsc hnz big junk α β hlen hfit) ?_
  rintro A' ⟨hs, LB, T', hI, hS', hd⟩
  exact ⟨hs, LB, T', h.added hB hNB hbs hs hI hd, hS', hd⟩

end EllB

end Bml
