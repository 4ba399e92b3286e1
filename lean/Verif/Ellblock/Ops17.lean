import Verif.Ellblock.Ops16

/-!
# Block-ELLPACK: the square of a matrix
-/

set_option linter.unusedSectionVars false

namespace Bml

namespace EllB

variable {R : Type} {E : Prop} [CommRing R]

section
variable {X : EllB R} {L : Nat → BRow R} {N : Nat} {a : Spec.Mat R}

/-- The diagonal of the diagonal block. -/
theorem Rows.diagBlocks_eq (h : X.Rows N L a) {ib : Nat} (hib : ib < X.NB) :
    X.diagBlocks ib = .ok (∑ ii ∈ Finset.range (X.bsize.get ib),
      a (off X.bsize.get ib + ii) (off X.bsize.get ib + ii)) := by
  have hd : ∀ ii ∈ Finset.range (X.bsize.get ib), a (off X.bsize.get ib + ii)
      (off X.bsize.get ib + ii) = val (L ib) ib (ii * X.bsize.get ib + ii) := fun ii hii =>
    (h.den ib ib ii ii hib hib (by simpa using hii) (by simpa using hii)).symm
  rw [Finset.sum_congr rfl hd]
  unfold diagBlocks
  rw [h.is.eachIdx_eq hib 0 _ (fun p t => if p.1 = ib then
      loop (X.bsize.get ib) t fun kk t => do
        let y ← p.2.read (kk * (1 + X.bsize.get ib))
        pure (t + y)
      else pure t)]
  · rw [forList_pick (h.good ib hib).nodup ib 0 (fun v =>
      ∑ ii ∈ Finset.range (X.bsize.get ib), v (ii * X.bsize.get ib + ii)) (by simp), zero_add]
    · intro p s hp he
      rw [if_pos he]
      refine loop_sum fun k s hk => ?_
      have e : k * (1 + X.bsize.get ib) = k * X.bsize.get ib + k := by ring
      have := h.read_eq hib hp (ii := k) (jj := k) hk (by rw [he]; exact hk)
      rw [he] at this
      rw [e, this, Res.bind_ok, Res.pure_eq]
    · intro p s hp he
      rw [if_neg he]; rfl
  · intro jp jb b s hs
    by_cases hj : jb = ib
    · rw [if_pos hj, if_pos hj, h.is.block_eq hib hs, Res.bind_ok, h.is.bsize_eq hib, Res.bind_ok]
    · rw [if_neg hj, if_neg hj]

/-- The sum that is meant to be the trace of the diagonal block of the square. -/
theorem wp_traceProd {NB m : Nat} {bs : Arr Nat} {ib : Nat} {s : BScr R} {J : List Nat}
    {v : Nat → Nat → R}
    (h : s.Holds NB (m * m) (fun jb => bs.get ib * bs.get jb) J v) (hbs : bs.size = NB)
    (hib : ib < NB) (hm : ∀ jb, jb < NB → bs.get jb ≤ m) :
    (traceProd bs ib J.length s).wp E (fun t => (∀ jb, jb < NB → bs.get jb = bs.get ib) →
      t = ∑ kk ∈ Finset.range (bs.get ib), v ib (kk * bs.get ib + kk)) := by
  unfold traceProd
  refine wp_loop' (fun n (t : R) => (∀ jb, jb < NB → bs.get jb = bs.get ib) →
    t = if ib ∈ J.take n then ∑ kk ∈ Finset.range (bs.get ib), v ib (kk * bs.get ib + kk) else 0)
    (by simp) ?_ ?_
  · intro n hn t ht
    obtain ⟨jb, hjm⟩ : ∃ jb, J[n]? = some jb := ⟨_, List.getElem?_eq_getElem hn⟩
    have hmem : jb ∈ J := List.mem_of_getElem? hjm
    have hjb : jb < NB := h.lt jb hmem
    have hnNB : n < NB := by have := h.length_le; omega
    have hts : J.take (n + 1) = J.take n ++ [jb] := by
      rw [List.take_add_one, hjm]; rfl
    rw [Arr.read_ok (by rw [h.szj]; exact hnNB), h.jx n jb hjm, Res.bind_ok]
    by_cases hj : jb = ib
    · subst hj
      rw [if_pos rfl, Arr.read_ok (by rw [h.szx]; exact hjb), Res.bind_ok,
        Arr.read_ok (by rw [hbs]; exact hjb), Res.bind_ok]
      have hnot : jb ∉ J.take n := by
        have hnd := h.nodup
        rw [← List.take_append_drop (n + 1) J, hts, List.append_assoc, List.nodup_append] at hnd
        intro hh
        exact hnd.2.2 jb hh jb (by simp) rfl
      refine wp_loop' (fun kk (t' : R) => (∀ c, c < NB → bs.get c = bs.get jb) →
        t' = ∑ kk ∈ Finset.range kk, v jb (kk * bs.get jb + kk)) ?_ ?_ ?_
      · intro hu
        rw [ht hu, if_neg hnot]; simp
      · intro kk hkk t' ht'
        rw [Arr.read_ok (by rw [hbs]; exact hnNB), Res.bind_ok]
        have hlt : kk * (1 + bs.get n) < (s.x.get jb).size := by
          rw [h.buf jb hjb]
          have h1 := hm n hnNB
          have h2 := hm jb hjb
          have h3 : kk + 1 ≤ m := by omega
          calc kk * (1 + bs.get n) ≤ kk * (1 + m) := Nat.mul_le_mul_left _ (by omega)
            _ < m * m := by nlinarith
        rw [Arr.read_ok hlt, Res.bind_ok, Res.pure_eq, Res.wp_ok]
        intro hu
        rw [Finset.sum_range_succ, ht' hu, hu n hnNB]
        have e : kk * (1 + bs.get jb) = kk * bs.get jb + kk := by ring
        rw [e, h.val jb hmem _ (addr_lt hkk hkk)]
      · intro t' ht' hu
        rw [ht' hu, hts, if_pos (by simp)]
    · rw [if_neg hj, Res.pure_eq, Res.wp_ok]
      intro hu
      rw [ht hu, hts]
      simp [Ne.symm hj]
  · intro t ht hu
    rw [ht hu, List.take_length]
    by_cases hJ : ib ∈ J
    · rw [if_pos hJ]
    · rw [if_neg hJ, Finset.sum_eq_zero]
      intro kk _
      exact h.out ib hJ _

/-- `bml_multiply_x2`. -/
theorem Rows.wp_multiplyX2 {X2 : EllB R} {L0 : Nat → BRow R} (h : X.Rows N L a) (hC : X2.Is L0)
    (hCN : X2.N = N) (hCNB : X2.NB = X.NB) (hCMB : X2.MB = X.MB) (hCbs : X2.bsize = X.bsize)
    (h6 : ∀ jb, jb < X.NB → 0 < X.bsize.get jb ∧ X.bsize.get jb ≤ 6)
    {sc : Sched} (hsc : IsSched 0 X.NB sc) (big : R → Bool) (junk : Nat → R)
    (hE : (∃ ib, ib < X.NB ∧ X.MB < (mulCols L (L ib)).length) → E) :
    (multiplyX2 sc big junk X X2).wp E (fun r => Same X2 r.1 ∧
      (∀ ib, ib < X.NB → (mulCols L (L ib)).length ≤ X.MB) ∧
      r.2.1 = Spec.tr N a ∧
      ((∀ ib jb, ib < X.NB → jb < X.NB → X.bsize.get jb = X.bsize.get ib) →
        r.2.2 = Spec.tr N (Spec.mul N a a)) ∧
      ∃ LC, r.1.Rows N LC (keepProd X.bsize.get big (Spec.mul N a a)) ∧
        (∀ ib, ib < X.NB → ∀ p ∈ LC ib, p.2.size = X.bsize.get ib * X.bsize.get p.1) ∧
        (X2.Clean → (∀ ib, ib < X.NB → L0 ib = []) → r.1.Clean)) := by
  unfold multiplyX2
  rw [if_neg (by rw [hCNB, hCMB]; simp), Res.wp_bind]
  refine Res.wp_mono hC.wp_clear ?_
  rintro C ⟨hCI, hs0, hptr, -⟩
  obtain ⟨m, em, hm⟩ := maxBsize_spec (A := X) h.is.bs_size
  rw [em, Res.bind_ok, Res.wp_bind]
  have eNB : C.NB = X.NB := hs0.NB.trans hCNB
  have eMB : C.MB = X.MB := hs0.MB.trans hCMB
  have ebs : C.bsize = X.bsize := hs0.bsize.trans hCbs
  have hn2 : ∀ ib jb, ib < X.NB → jb < X.NB → X.bsize.get ib * X.bsize.get jb ≤ m * m :=
    fun ib jb hib hjb => Nat.mul_le_mul (hm ib hib) (hm jb hjb)
  set cols := fun ib => kept big true ib (fun jb => X.bsize.get ib * X.bsize.get jb)
      (mulVal X.bsize.get L (L ib)) (mulCols L (L ib)) with hcols
  set v := fun ib => mulVal X.bsize.get L (L ib) with hv
  set d1 := fun ib => ∑ ii ∈ Finset.range (X.bsize.get ib),
      a (off X.bsize.get ib + ii) (off X.bsize.get ib + ii) with hd1
  set d2 := fun ib => ∑ ii ∈ Finset.range (X.bsize.get ib),
      Spec.mul N a a (off X.bsize.get ib + ii) (off X.bsize.get ib + ii) with hd2
  refine wp_forList (fun pre (st : EllB R × (Nat → BScr R) × R × R) =>
    (∀ t, (st.2.1 t).Clean X.NB (m * m)) ∧
    (∀ ib, ib ∈ pre.map Prod.snd → (mulCols L (L ib)).length ≤ X.MB ∧
      (∀ c ∈ mulCols L (L ib), c < X.NB) ∧
      ∀ jb, jb ∉ mulCols L (L ib) → ∀ k, mulVal X.bsize.get L (L ib) jb k = 0) ∧
    st.2.2.1 = ((pre.map Prod.snd).map d1).sum ∧
    ((∀ ib jb, ib < X.NB → jb < X.NB → X.bsize.get jb = X.bsize.get ib) →
      st.2.2.2 = ((pre.map Prod.snd).map d2).sum) ∧
    ∃ LC : Nat → BRow R, Fill C (fun _ => []) cols v (pre.map Prod.snd) st.1 LC) ?_ ?_ ?_
  · exact ⟨fun _ => BScr.clean_clearScr _ _, by simp, by simp, by simp, fun _ => [],
      Fill.start hCI _ _⟩
  · rintro pre ⟨t, ib⟩ post hsplit ⟨C1, ws, t1, t2⟩ ⟨hc, hd, q1, q2, LC, hF⟩
    simp only at hc hd q1 q2 hF ⊢
    obtain ⟨-, hib, hnot⟩ := sched_split hsc hsplit
    simp only at hib hnot
    rw [Res.wp_bind]
    unfold squareRow
    rw [h.diagBlocks_eq hib, Res.bind_ok, Res.wp_bind]
    refine Res.wp_mono (wp_accumProd h.is h.is rfl h.is.bs_size hib (h.good ib hib)
      (fun jb hjb => h.good jb hjb) h6 hn2 junk (hc t)) ?_
    rintro ⟨s1, l1⟩ ⟨g1, g2⟩
    simp only at g1 g2 ⊢
    subst g2
    by_cases hlt : X.MB < (mulCols L (L ib)).length
    · rw [if_pos hlt]
      exact hE ⟨ib, hib, hlt⟩
    · rw [if_neg hlt, Res.wp_bind]
      refine Res.wp_mono (wp_traceProd g1 h.is.bs_size hib hm) ?_
      intro u hu
      have hst := hF.wp_step (E := E) (ib := ib) (by rw [eNB]; exact hib) hnot (n2 := m * m) (s := s1)
        (J := mulCols L (L ib)) (by rw [eNB, ebs]; exact g1)
        (by rw [eNB, ebs]; exact fun jb hjb => hn2 ib jb hib hjb) big (by omega)
        (by rw [ebs])
      rw [ebs] at hst
      simp only [Res.wp_bind] at hst ⊢
      refine Res.wp_mono hst ?_
      rintro ⟨C2, s2, ll⟩ hst2
      simp only [Res.pure_eq, Res.wp_ok] at hst2 ⊢
      refine Res.wp_mono hst2 ?_
      rintro C3 ⟨k1, L2, k2⟩
      refine ⟨?_, ?_, ?_, ?_, L2, by simpa using k2⟩
      · intro t'
        by_cases ht : t' = t
        · subst ht; show ((upd ws t' s2) t').Clean _ _; rw [upd_same, ← eNB]; exact k1
        · show ((upd ws t s2) t').Clean _ _; rw [upd_ne _ _ ht]; exact hc t'
      · intro ib' hm'
        simp only [List.map_append, List.map_cons, List.map_nil, List.mem_append,
          List.mem_singleton] at hm'
        rcases hm' with hm' | rfl
        · exact hd ib' hm'
        · exact ⟨by omega, g1.lt, g1.out⟩
      · rw [q1]; simp [hd1]
      · intro hun
        rw [q2 hun, hu (fun jb hjb => hun ib jb hib hjb)]
        simp only [List.map_append, List.map_cons, List.map_nil, List.sum_append, List.sum_cons,
          List.sum_nil, add_zero, hd2]
        congr 1
        refine Finset.sum_congr rfl fun kk hkk => ?_
        exact mulVal_eq h h rfl rfl hib hib (by simpa using hkk) (by simpa using hkk)
  · rintro ⟨C1, ws, t1, t2⟩ ⟨hc, hd, q1, q2, LC, hF⟩
    simp only at hc hd q1 q2 hF ⊢
    rw [Res.pure_eq, Res.wp_ok]
    have hall : ∀ ib, ib < X.NB → ib ∈ sc.map Prod.snd := fun ib hib =>
      (hsc.mem ib).2 ⟨Nat.zero_le _, hib⟩
    have hsum : ∀ f : Nat → R, ((sc.map Prod.snd).map
        (fun ib => ∑ ii ∈ Finset.range (X.bsize.get ib), f (off X.bsize.get ib + ii))).sum =
        ∑ i ∈ Finset.range N, f i := by
      intro f
      rw [hsc.sum_eq, ← h.N_eq, sum_off, Finset.range_eq_Ico]
    refine ⟨hs0.trans hF.same, fun ib hib => (hd ib (hall ib hib)).1, ?_, ?_, LC,
      hF.rows h h rfl rfl (hs0.N.trans hCN) eNB ebs hall (fun ib hib => (hd ib (hall ib hib)).2),
      ?_, ?_⟩
    · rw [q1]; exact hsum fun i => a i i
    · intro hun
      rw [q2 hun]; exact hsum fun i => Spec.mul N a a i i
    · intro ib hib p hp
      have := (hF.done ib (hall ib hib)).2 p hp
      rwa [ebs] at this
    · intro hcl he ib jp h1 h2 h3
      refine hF.clean ?_ (fun _ _ => rfl) ib jp h1 ?_ h3
      · intro ib' jp' w1 w2 w3
        rw [hptr, hs0.MB]
        rw [hs0.NB] at w1
        rw [hs0.MB] at w3
        refine hcl ib' jp' w1 ?_ w3
        rw [hC.nz ib' w1, he ib' (by rw [← hCNB]; exact w1)]
        exact Nat.zero_le _
      · have := hF.nz ib (by rw [← hF.same.NB]; exact h1)
        show (LC ib).length ≤ jp
        rw [← this]; exact h2

end

end EllB

end Bml
