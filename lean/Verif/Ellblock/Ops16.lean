import Verif.Ellblock.Ops15

/-!
# Block-ELLPACK: the product of two matrices
-/

set_option linter.unusedSectionVars false

namespace Bml

namespace EllB

variable {R : Type} {E : Prop} [CommRing R]

/-- The blocks of a product that are stored: the diagonal blocks, and those with an element above the
threshold. -/
noncomputable def keepProd (bs : Nat → Nat) (big : R → Bool) (a : Spec.Mat R) : Spec.Mat R :=
  open Classical in
  fun i j => if Together bs i j ∨ ∃ i' j', Together bs i i' ∧ Together bs j j' ∧ big (a i' j') = true
    then a i j else 0

theorem together_same {bs : Nat → Nat} {ib jb ii jj : Nat} (hii : ii < bs ib) (hjj : jj < bs jb) :
    Together bs (off bs ib + ii) (off bs jb + jj) ↔ jb = ib := by
  rw [together_iff hii]
  constructor
  · rintro ⟨ii', h1, h2⟩
    exact (off_inj hjj h1 h2).1
  · rintro rfl
    exact ⟨jj, hjj, rfl⟩

theorem keepProd_eq {bs : Nat → Nat} {big : R → Bool} {a : Spec.Mat R} {ib jb ii jj : Nat}
    (hii : ii < bs ib) (hjj : jj < bs jb) [Decidable (jb = ib ∨ ∃ ii' jj', ii' < bs ib ∧
      jj' < bs jb ∧ big (a (off bs ib + ii') (off bs jb + jj')) = true)] :
    keepProd bs big a (off bs ib + ii) (off bs jb + jj) =
      if jb = ib ∨ ∃ ii' jj', ii' < bs ib ∧ jj' < bs jb ∧
        big (a (off bs ib + ii') (off bs jb + jj')) = true
      then a (off bs ib + ii) (off bs jb + jj) else 0 := by
  unfold keepProd
  rw [together_same hii hjj]
  have : (∃ i' j', Together bs (off bs ib + ii) i' ∧ Together bs (off bs jb + jj) j' ∧
      big (a i' j') = true) ↔ ∃ ii' jj', ii' < bs ib ∧ jj' < bs jb ∧
        big (a (off bs ib + ii') (off bs jb + jj')) = true := by
    constructor
    · rintro ⟨i', j', h1, h2, h3⟩
      obtain ⟨ii', h4, rfl⟩ := (together_iff hii i').1 h1
      obtain ⟨jj', h5, rfl⟩ := (together_iff hjj j').1 h2
      exact ⟨ii', jj', h4, h5, h3⟩
    · rintro ⟨ii', jj', h4, h5, h3⟩
      exact ⟨_, _, (together_iff hii _).2 ⟨ii', h4, rfl⟩, (together_iff hjj _).2 ⟨jj', h5, rfl⟩, h3⟩
  simp only [this]

section
variable {A B : EllB R} {L L' : Nat → BRow R} {N : Nat} {a b : Spec.Mat R}

theorem mulCols_nodup (L' : Nat → BRow R) (l : BRow R) : (mulCols L' l).Nodup := by
  have : ∀ (l : BRow R) (J : List Nat), J.Nodup →
      (l.foldl (fun J p => ((L' p.1).map Prod.fst).foldl join J) J).Nodup := by
    intro l
    induction l with
    | nil => exact fun _ h => h
    | cons p l ih => exact fun J h => ih _ (foldl_join_nodup _ _ h)
  exact this l [] List.nodup_nil

/-- The accumulated values are those of the product. -/
theorem mulVal_eq (h : A.Rows N L a) (hB : B.Rows N L' b) (hNB : B.NB = A.NB)
    (hbs : B.bsize = A.bsize) {ib kb ii jj : Nat} (hib : ib < A.NB) (hkb : kb < A.NB)
    (hii : ii < A.bsize.get ib) (hjj : jj < A.bsize.get kb) :
    mulVal A.bsize.get L' (L ib) kb (ii * A.bsize.get kb + jj) =
      Spec.mul N a b (off A.bsize.get ib + ii) (off A.bsize.get kb + jj) := by
  unfold Spec.mul
  rw [← h.sum_row hib hii (fun j x => x * b j (off A.bsize.get kb + jj)) (fun j => zero_mul _)]
  unfold mulVal
  congr 1
  refine List.map_congr_left fun p hp => ?_
  have hpb := (h.good ib hib).lt p hp
  rw [blkDot_flat _ _ hjj]
  refine Finset.sum_congr rfl fun q hq => ?_
  have := hB.den p.1 kb q jj (by rw [hNB]; exact hpb) (by rw [hNB]; exact hkb)
    (by rw [hbs]; simpa using hq) (by rw [hbs]; exact hjj)
  rw [hbs] at this
  rw [this]

/-- The rows of the product, once they are stored. -/
theorem Fill.rows {C C' : EllB R} {L0 LC : Nat → BRow R} (h : A.Rows N L a) (hB : B.Rows N L' b)
    (hNB : B.NB = A.NB) (hbs : B.bsize = A.bsize) (hCN : C.N = N) (hCNB : C.NB = A.NB)
    (hCbs : C.bsize = A.bsize) {big : R → Bool} {pre : List Nat}
    (hF : Fill C L0 (fun ib => kept big true ib (fun jb => A.bsize.get ib * A.bsize.get jb)
      (mulVal A.bsize.get L' (L ib)) (mulCols L' (L ib))) (fun ib => mulVal A.bsize.get L' (L ib))
      pre C' LC) (hpre : ∀ ib, ib < A.NB → ib ∈ pre)
    (hout : ∀ ib, ib < A.NB → (∀ c ∈ mulCols L' (L ib), c < A.NB) ∧
      ∀ jb, jb ∉ mulCols L' (L ib) → ∀ k, mulVal A.bsize.get L' (L ib) jb k = 0) :
    C'.Rows N LC (keepProd A.bsize.get big (Spec.mul N a b)) := by
  classical
  have hs := hF.same
  have eNB : C'.NB = A.NB := hs.NB.trans hCNB
  have ebs : C'.bsize = A.bsize := hs.bsize.trans hCbs
  refine ⟨hF.is, ?_, hs.N.trans hCN, by rw [ebs, eNB]; exact h.N_eq, ?_⟩
  · intro ib hib
    rw [eNB] at hib
    have d := (hF.done ib (hpre ib hib)).1
    rw [eNB, ebs]
    rw [hCbs] at d
    exact d.good ((mulCols_nodup _ _).filter _)
      (fun c hc => (hout ib hib).1 c (List.mem_filter.1 hc).1)
  · intro ib jb ii jj hib hjb hii hjj
    rw [eNB] at hib hjb
    rw [ebs] at hii hjj ⊢
    have d := (hF.done ib (hpre ib hib)).1
    rw [hCbs] at d
    have hk : ii * A.bsize.get jb + jj < A.bsize.get ib * A.bsize.get jb := addr_lt hii hjj
    have hv := fun ii jj h1 h2 => mulVal_eq (ii := ii) (jj := jj) h hB hNB hbs hib hjb h1 h2
    have := d.val_kept (mulCols_nodup _ _) (hout ib hib).2 jb hk
    rw [this, keepProd_eq hii hjj, hv ii jj hii hjj]
    congr 1
    simp only [true_and]
    rw [eq_iff_iff, exists_flat]
    refine or_congr Iff.rfl ?_
    constructor
    · rintro ⟨i', j', q1, q2, q3⟩
      exact ⟨i', j', q1, q2, by rw [← hv i' j' q1 q2]; exact q3⟩
    · rintro ⟨i', j', q1, q2, q3⟩
      exact ⟨i', j', q1, q2, by rw [hv i' j' q1 q2]; exact q3⟩

/-- `bml_multiply_AB`. -/
theorem Rows.wp_multiplyAB {C : EllB R} {L0 : Nat → BRow R} (h : A.Rows N L a) (hB : B.Rows N L' b)
    (hC : C.Is L0) (hNB : B.NB = A.NB) (hbs : B.bsize = A.bsize) (hCN : C.N = N)
    (hCNB : C.NB = A.NB) (hCbs : C.bsize = A.bsize)
    (h6 : ∀ jb, jb < A.NB → 0 < A.bsize.get jb ∧ A.bsize.get jb ≤ 6)
    {sc : Sched} (hsc : IsSched 0 A.NB sc) (big : R → Bool) (junk : Nat → R)
    (hE : (∃ ib, ib < A.NB ∧ C.MB < (mulCols L' (L ib)).length) → E) :
    (multiplyAB sc big junk A B C).wp E (fun C' => Same C C' ∧
      (∀ ib, ib < A.NB → (mulCols L' (L ib)).length ≤ C.MB) ∧
      ∃ LC, C'.Rows N LC (keepProd A.bsize.get big (Spec.mul N a b)) ∧
        (∀ ib, ib < A.NB → ∀ p ∈ LC ib, p.2.size = A.bsize.get ib * A.bsize.get p.1) ∧
        (C.Clean → (∀ ib, ib < A.NB → L0 ib = []) → C'.Clean)) := by
  unfold multiplyAB
  rw [if_neg (by rw [hNB, hCNB]; simp)]
  obtain ⟨m, em, hm⟩ := maxBsize_spec (A := A) h.is.bs_size
  rw [em, Res.bind_ok, Res.wp_bind]
  have hn2 : ∀ ib jb, ib < A.NB → jb < A.NB → A.bsize.get ib * A.bsize.get jb ≤ m * m :=
    fun ib jb hib hjb => Nat.mul_le_mul (hm ib hib) (hm jb hjb)
  have hgB : ∀ jb, jb < A.NB → GoodRow A.NB A.bsize.get jb (L' jb) := by
    intro jb hjb
    have := hB.good jb (by rw [hNB]; exact hjb)
    rwa [hNB, hbs] at this
  set cols := fun ib => kept big true ib (fun jb => A.bsize.get ib * A.bsize.get jb)
      (mulVal A.bsize.get L' (L ib)) (mulCols L' (L ib)) with hcols
  set v := fun ib => mulVal A.bsize.get L' (L ib) with hv
  refine wp_forList (fun pre (st : EllB R × (Nat → BScr R)) =>
    (∀ t, (st.2 t).Clean A.NB (m * m)) ∧
    (∀ ib, ib ∈ pre.map Prod.snd → (mulCols L' (L ib)).length ≤ C.MB ∧
      (∀ c ∈ mulCols L' (L ib), c < A.NB) ∧
      ∀ jb, jb ∉ mulCols L' (L ib) → ∀ k, mulVal A.bsize.get L' (L ib) jb k = 0) ∧
    ∃ LC : Nat → BRow R, Fill C L0 cols v (pre.map Prod.snd) st.1 LC) ?_ ?_ ?_
  · exact ⟨fun _ => BScr.clean_clearScr _ _, by simp, L0, Fill.start hC _ _⟩
  · rintro pre ⟨t, ib⟩ post hsplit ⟨C1, ws⟩ ⟨hc, hd, LC, hF⟩
    simp only at hc hd hF ⊢
    obtain ⟨-, hib, hnot⟩ := sched_split hsc hsplit
    simp only at hib hnot
    rw [Res.wp_bind]
    unfold prodRow
    rw [Res.wp_bind]
    refine Res.wp_mono (wp_accumProd h.is hB.is hNB h.is.bs_size hib (h.good ib hib) hgB h6 hn2 junk
      (hc t)) ?_
    rintro ⟨s1, l1⟩ ⟨g1, g2⟩
    simp only at g1 g2 ⊢
    subst g2
    rw [hF.same.MB]
    by_cases hlt : C.MB < (mulCols L' (L ib)).length
    · rw [if_pos hlt]
      exact hE ⟨ib, hib, hlt⟩
    · rw [if_neg hlt]
      have hst := hF.wp_step (E := E) (ib := ib) (by rw [hCNB]; exact hib) hnot (n2 := m * m) (s := s1)
        (J := mulCols L' (L ib)) (by rw [hCNB, hCbs]; exact g1)
        (by rw [hCNB, hCbs]; exact fun jb hjb => hn2 ib jb hib hjb) big (by omega)
        (by rw [hCbs])
      rw [hCbs] at hst
      refine Res.wp_mono hst ?_
      rintro ⟨C2, s2⟩ ⟨k1, L2, k2⟩
      simp only at k1 k2 ⊢
      rw [Res.pure_eq, Res.wp_ok]
      refine ⟨?_, ?_, L2, by simpa using k2⟩
      · intro t'
        by_cases ht : t' = t
        · subst ht; show ((upd ws t' s2) t').Clean _ _; rw [upd_same, ← hCNB]; exact k1
        · show ((upd ws t s2) t').Clean _ _; rw [upd_ne _ _ ht]; exact hc t'
      · intro ib' hm'
        simp only [List.map_append, List.map_cons, List.map_nil, List.mem_append,
          List.mem_singleton] at hm'
        rcases hm' with hm' | rfl
        · exact hd ib' hm'
        · exact ⟨by omega, g1.lt, g1.out⟩
  · rintro ⟨C1, ws⟩ ⟨hc, hd, LC, hF⟩
    simp only at hc hd hF ⊢
    rw [Res.pure_eq, Res.wp_ok]
    have hall : ∀ ib, ib < A.NB → ib ∈ sc.map Prod.snd := fun ib hib =>
      (hsc.mem ib).2 ⟨Nat.zero_le _, hib⟩
    refine ⟨hF.same, fun ib hib => (hd ib (hall ib hib)).1, LC,
      hF.rows h hB hNB hbs hCN hCNB hCbs hall (fun ib hib => (hd ib (hall ib hib)).2), ?_, ?_⟩
    · intro ib hib p hp
      have := (hF.done ib (hall ib hib)).2 p hp
      rwa [hCbs] at this
    · intro hcl he ib jp h1 h2 h3
      refine hF.clean hcl (by rw [hCNB]; exact he) ib jp h1 ?_ h3
      have := hF.nz ib (by rw [← hF.same.NB]; exact h1)
      show (LC ib).length ≤ jp
      rw [← this]; exact h2

end

end EllB

end Bml
