import Verif.Ellblock.Ops22

/-!
# Block-ELLPACK: sums of products of elements, and the distance of two matrices
-/

set_option linter.unusedSectionVars false

namespace Bml

namespace EllB

variable {R K : Type} {E : Prop}

/-- Changing a buffer element by element. -/
theorem wp_updBuf {n m : Nat} {x : Arr R} {step : Nat → Nat → Arr R → Res (Arr R)}
    (g : Nat → R → R) (hs : ∀ ii jj (y : Arr R), ii < n → jj < m → y.size = x.size →
      step ii jj y = .ok ⟨y.size, upd y.get (ii * m + jj) (g (ii * m + jj) (y.get (ii * m + jj)))⟩) :
    (loop2 n m x step).wp E (fun y => y.size = x.size ∧
      ∀ k, k < n * m → y.get k = g k (x.get k)) := by
  refine wp_loop2 (fun i j (y : Arr R) => y.size = x.size ∧ ∀ k, y.get k =
    if k < i * m + j then g k (x.get k) else x.get k) ⟨rfl, by simp⟩ ?_ ?_ ?_
  · rintro ii jj hii hjj y ⟨h1, h2⟩
    rw [hs ii jj y hii hjj h1, Res.wp_ok]
    refine ⟨h1, fun k => ?_⟩
    simp only
    by_cases hk : k = ii * m + jj
    · subst hk
      rw [upd_same, h2, if_neg (lt_irrefl _), if_pos (by omega)]
    · rw [upd_ne _ _ hk, h2]
      by_cases hk' : k < ii * m + jj
      · rw [if_pos hk', if_pos (by omega)]
      · rw [if_neg hk', if_neg (by omega)]
  · rintro ii y hii ⟨h1, h2⟩
    refine ⟨h1, fun k => ?_⟩
    rw [h2, Nat.succ_mul, Nat.add_zero]
  · rintro y ⟨h1, h2⟩
    refine ⟨h1, fun k hk => ?_⟩
    rw [h2, if_pos (by omega)]

section
variable [CommRing R]

/-- The buffers and marks after loading the columns `I`. -/
structure Loaded (NB n2 : Nat) (w : Nat → Nat) (ix : Arr Nat) (y : Arr (Arr R)) (I : List Nat)
    (v : Nat → Nat → R) : Prop where
  szi : ix.size = NB
  szy : y.size = NB
  buf : ∀ jb, jb < NB → (y.get jb).size = n2
  mark : ∀ jb, jb < NB → (ix.get jb = 0 ↔ jb ∉ I)
  val : ∀ jb ∈ I, ∀ k, k < w jb → (y.get jb).get k = v jb k

theorem wp_sumABLoad {A : EllB R} {L : Nat → BRow R} (hI : A.Is L) {ib : Nat} (hib : ib < A.NB)
    (hg : GoodRow A.NB A.bsize.get ib (L ib)) {n2 : Nat}
    (hn2 : ∀ jb, jb < A.NB → A.bsize.get ib * A.bsize.get jb ≤ n2) {y : Arr (Arr R)}
    (hy : y.size = A.NB) (hb : ∀ jb, jb < A.NB → (y.get jb).size = n2) (α : R) :
    (sumABLoad α A ib y).wp E (fun s => Loaded A.NB n2 (fun jb => A.bsize.get ib * A.bsize.get jb)
      s.1 s.2 ((L ib).map Prod.fst) (fun jb k => α * val (L ib) jb k)) := by
  unfold sumABLoad
  rw [hI.eachIdx_eq hib _ _ (fun p s => do
    let ix ← s.1.write p.1 1
    let yv ← s.2.read p.1
    let yv ← loop2 (A.bsize.get ib) (A.bsize.get p.1) yv fun ii jj yv => do
      let v ← p.2.read (ROWMAJOR ii jj (A.bsize.get ib) (A.bsize.get p.1))
      yv.write (ROWMAJOR ii jj (A.bsize.get ib) (A.bsize.get p.1)) (α * v)
    let y ← s.2.write p.1 yv
    pure (ix, y))]
  · refine wp_forList (fun pre (s : Arr Nat × Arr (Arr R)) =>
      Loaded A.NB n2 (fun jb => A.bsize.get ib * A.bsize.get jb) s.1 s.2 (pre.map Prod.fst)
        (fun jb k => α * val pre jb k)) ?_ ?_ (fun _ h => h)
    · exact ⟨rfl, hy, hb, by simp, by simp⟩
    · rintro pre p post hsp ⟨ix, y'⟩ h1
      simp only at h1
      have hp : p ∈ L ib := by rw [hsp]; simp
      have hpb := hg.lt p hp
      have hnew : p.1 ∉ pre.map Prod.fst := by
        have := hg.nodup
        rw [hsp, List.map_append, List.map_cons, List.nodup_append] at this
        intro hh
        exact this.2.2 _ hh _ (by simp) rfl
      simp only [Res.wp_bind, Arr.wp_write, Arr.wp_read]
      refine ⟨by rw [h1.szi]; exact hpb, by rw [h1.szy]; exact hpb, ?_⟩
      have hsz := h1.buf p.1 hpb
      refine Res.wp_mono (wp_updBuf (fun k _ => α * p.2.get k) ?_) ?_
      · intro ii jj z hii hjj hz
        have hk := addr_lt hii hjj
        have h3 := hg.size p hp
        have h4 := hn2 p.1 hpb
        simp only [ROWMAJOR]
        rw [Arr.read_ok (by omega), Res.bind_ok]
        exact if_pos (by omega)
      · rintro z ⟨z1, z2⟩
        refine ⟨by rw [h1.szy]; exact hpb, ?_⟩
        rw [Res.pure_eq, Res.wp_ok]
        refine ⟨h1.szi, h1.szy, ?_, ?_, ?_⟩
        · intro k hk
          simp only
          by_cases hkj : k = p.1
          · rw [hkj, upd_same, z1]; exact hsz
          · rw [upd_ne _ _ hkj]; exact h1.buf k hk
        · intro k hk
          simp only
          by_cases hkj : k = p.1
          · rw [hkj, upd_same]; simp
          · rw [upd_ne _ _ hkj, h1.mark k hk]
            simp [hkj]
        · intro jb hjb k hk
          simp only
          rw [val_append, val_cons, val_nil]
          by_cases hkj : jb = p.1
          · subst hkj
            rw [upd_same, if_pos rfl, z2 k hk, val_of_not_mem hnew]
            ring
          · rw [upd_ne _ _ hkj, if_neg (Ne.symm hkj)]
            have hm : jb ∈ pre.map Prod.fst := by
              rw [List.map_append, List.mem_append] at hjb
              rcases hjb with hjb | hjb
              · exact hjb
              · simp at hjb; exact absurd hjb hkj
            rw [h1.val jb hm k hk]
            ring
  · intro jp jb b st hs
    have hjb := hg.lt _ (List.mem_of_getElem? hs)
    rw [hI.block_eq hib hs, hI.bsize_eq hib, hI.bsize_eq hjb]
    rfl

theorem wp_sumABTimes {A B : EllB R} {L : Nat → BRow R} (hI : B.Is L)
    (hMB : B.MB = A.MB) (hbs : A.bsize.size = B.NB) {ib : Nat} (hib : ib < B.NB)
    (hg : GoodRow B.NB A.bsize.get ib (L ib)) {n2 : Nat}
    (hn2 : ∀ jb, jb < B.NB → A.bsize.get ib * A.bsize.get jb ≤ n2) {ix : Arr Nat}
    {y : Arr (Arr R)} {I : List Nat} {v : Nat → Nat → R}
    (h : Loaded B.NB n2 (fun jb => A.bsize.get ib * A.bsize.get jb) ix y I v) {jjb : Arr Nat}
    (hj : jjb.size = A.MB) :
    (sumABTimes A B ib ix y jjb).wp E (fun s => ∃ J : List Nat, s.1.size = B.NB ∧
      (∀ jb, jb < B.NB → (s.1.get jb).size = n2) ∧ s.2.1.size = A.MB ∧ s.2.2 = J.length ∧
      J.length ≤ A.MB ∧ (∀ k jb, J[k]? = some jb → s.2.1.get k = jb) ∧ J.Nodup ∧
      (∀ jb, jb ∈ J ↔ jb ∈ I ∧ jb ∈ (L ib).map Prod.fst) ∧
      ∀ jb ∈ J, ∀ k, k < A.bsize.get ib * A.bsize.get jb →
        (s.1.get jb).get k = v jb k * val (L ib) jb k) := by
  unfold sumABTimes
  have e := hI.loop_eq hib hMB (y, jjb, 0) (fun ind jb (s : Arr (Arr R) × Arr Nat × Nat) => do
      let t ← ix.read jb
      if t ≠ 0 then do
        let jjb ← s.2.1.write s.2.2 jb
        let yv ← s.1.read jb
        let b ← B.block ind
        let bi ← A.bsize.read ib
        let bj ← A.bsize.read jb
        let yv ← loop2 bi bj yv fun ii jj yv => do
          let v ← b.read (ROWMAJOR ii jj bi bj)
          let x ← yv.read (ROWMAJOR ii jj bi bj)
          yv.write (ROWMAJOR ii jj bi bj) (x * v)
        let y ← s.1.write jb yv
        pure (y, jjb, s.2.2 + 1)
      else pure s) (fun p s => if ix.get p.1 ≠ 0 then do
        let jjb ← s.2.1.write s.2.2 p.1
        let yv ← s.1.read p.1
        let yv ← loop2 (A.bsize.get ib) (A.bsize.get p.1) yv fun ii jj yv => do
          let v ← p.2.read (ROWMAJOR ii jj (A.bsize.get ib) (A.bsize.get p.1))
          let x ← yv.read (ROWMAJOR ii jj (A.bsize.get ib) (A.bsize.get p.1))
          yv.write (ROWMAJOR ii jj (A.bsize.get ib) (A.bsize.get p.1)) (x * v)
        let y ← s.1.write p.1 yv
        pure (y, jjb, s.2.2 + 1)
      else pure s) ?_ A.NB
  · rw [e]
    refine wp_forList (fun pre (s : Arr (Arr R) × Arr Nat × Nat) => ∃ J : List Nat, s.1.size = B.NB ∧
      (∀ jb, jb < B.NB → (s.1.get jb).size = n2) ∧ s.2.1.size = A.MB ∧ s.2.2 = J.length ∧
      J.length ≤ pre.length ∧ (∀ k jb, J[k]? = some jb → s.2.1.get k = jb) ∧ J.Nodup ∧
      (∀ jb, jb ∈ J ↔ jb ∈ I ∧ jb ∈ pre.map Prod.fst) ∧
      (∀ jb, jb < B.NB → jb ∉ pre.map Prod.fst → s.1.get jb = y.get jb) ∧
      ∀ jb ∈ J, ∀ k, k < A.bsize.get ib * A.bsize.get jb →
        (s.1.get jb).get k = v jb k * val (L ib) jb k) ?_ ?_ ?_
    · exact ⟨[], h.szy, h.buf, hj, rfl, le_refl _, by simp, by simp, by simp, fun _ _ _ => rfl,
        by simp⟩
    · rintro pre p post hsp ⟨y', jjb', l⟩ ⟨J, h1, h2, h3, h4, h5, h6, h7, h8, h9, h10⟩
      simp only at h1 h2 h3 h4 h5 h6 h7 h8 h9 h10
      subst h4
      have hp : p ∈ L ib := by rw [hsp]; simp
      have hpb := hg.lt p hp
      have hnew : p.1 ∉ pre.map Prod.fst := by
        have := hg.nodup
        rw [hsp, List.map_append, List.map_cons, List.nodup_append] at this
        intro hh
        exact this.2.2 _ hh _ (by simp) rfl
      by_cases hm : p.1 ∈ I
      · have ht : ix.get p.1 ≠ 0 := fun hh => (h.mark p.1 hpb).1 hh hm
        have hle : (L ib).length ≤ A.MB := by rw [← hMB]; exact hI.le ib hib
        have hlt : J.length < A.MB := by
          rw [hsp, List.length_append, List.length_cons] at hle
          omega
        have hJ : p.1 ∉ J := fun hh => hnew ((h8 _).1 hh).2
        rw [if_pos ht]
        simp only [Res.wp_bind, Arr.wp_write, Arr.wp_read]
        refine ⟨by omega, by omega, ?_⟩
        have hsz := h2 p.1 hpb
        refine Res.wp_mono (wp_updBuf (fun k x => x * p.2.get k) ?_) ?_
        · intro ii jj z hii hjj hz
          have hk := addr_lt hii hjj
          have h3 := hg.size p hp
          have h4 := hn2 p.1 hpb
          simp only [ROWMAJOR]
          rw [Arr.read_ok (by omega), Res.bind_ok, Arr.read_ok (by omega), Res.bind_ok]
          exact if_pos (by omega)
        · rintro z ⟨z1, z2⟩
          refine ⟨by omega, ?_⟩
          rw [Res.pure_eq, Res.wp_ok]
          refine ⟨J ++ [p.1], h1, ?_, h3, by simp, by simp; omega, ?_, ?_, ?_, ?_, ?_⟩
          · intro k hk
            simp only
            by_cases hkj : k = p.1
            · rw [hkj, upd_same, z1]; exact hsz
            · rw [upd_ne _ _ hkj]; exact h2 k hk
          · intro k d hk
            simp only
            by_cases hkl : k = J.length
            · subst hkl
              rw [upd_same]
              simpa using hk
            · rw [upd_ne _ _ hkl]
              rw [List.getElem?_append_left] at hk
              · exact h6 k d hk
              · have := (List.getElem?_eq_some_iff.1 hk).1
                simp at this
                omega
          · rw [List.nodup_append]
            refine ⟨h7, by simp, ?_⟩
            intro a ha b hb
            rw [List.mem_singleton.1 hb]
            rintro rfl
            exact hJ ha
          · intro jb
            rw [List.mem_append, List.mem_singleton, h8, List.map_append, List.mem_append]
            simp only [List.map_cons, List.map_nil, List.mem_singleton]
            constructor
            · rintro (⟨q1, q2⟩ | rfl)
              · exact ⟨q1, Or.inl q2⟩
              · exact ⟨hm, Or.inr rfl⟩
            · rintro ⟨q1, q2 | rfl⟩
              · exact Or.inl ⟨q1, q2⟩
              · exact Or.inr rfl
          · intro jb hjb hn
            simp only [List.map_append, List.mem_append, List.map_cons, List.map_nil,
              List.mem_singleton, not_or] at hn
            simp only
            rw [upd_ne _ _ hn.2]
            exact h9 jb hjb hn.1
          · intro jb hjb k hk
            by_cases hkj : jb = p.1
            · subst hkj
              simp only [upd_same]
              rw [z2 k hk, h9 p.1 hpb hnew, h.val p.1 hm k hk,
                val_of_mem hg.nodup (jb := p.1) (b := p.2) hp]
            · simp only [upd_ne _ _ hkj]
              refine h10 jb ?_ k hk
              rcases List.mem_append.1 hjb with hh | hh
              · exact hh
              · exact absurd (List.mem_singleton.1 hh) hkj
      · have ht : ix.get p.1 = 0 := (h.mark p.1 hpb).2 hm
        rw [if_neg (by simpa using ht), Res.pure_eq, Res.wp_ok]
        refine ⟨J, h1, h2, h3, rfl, by simp; omega, h6, h7, ?_, ?_, h10⟩
        · intro jb
          rw [h8, List.map_append, List.mem_append]
          simp only [List.map_cons, List.map_nil, List.mem_singleton]
          constructor
          · rintro ⟨q1, q2⟩; exact ⟨q1, Or.inl q2⟩
          · rintro ⟨q1, q2 | rfl⟩
            · exact ⟨q1, q2⟩
            · exact absurd q1 hm
        · intro jb hjb hn
          simp only [List.map_append, List.mem_append, List.map_cons, List.map_nil,
            List.mem_singleton, not_or] at hn
          exact h9 jb hjb hn.1
    · rintro s ⟨J, h1, h2, h3, h4, h5, h6, h7, h8, -, h10⟩
      exact ⟨J, h1, h2, h3, h4, by have := hI.le ib hib; omega, h6, h7, h8, h10⟩
  · intro jp jb b st hs
    have hjb := hg.lt _ (List.mem_of_getElem? hs)
    simp only at hjb
    simp only
    rw [Arr.read_ok (by rw [h.szi]; exact hjb), Res.bind_ok, hI.block_eq hib hs,
      Arr.read_ok (a := A.bsize) (by omega : ib < A.bsize.size),
      Arr.read_ok (a := A.bsize) (by omega : jb < A.bsize.size)]
    rfl

theorem sumABFlush_eq [AddCommMonoid K] (f : R → K) (above : K → Bool) {A : EllB R} {ib n2 : Nat}
    (hbs : A.bsize.size = A.NB) (hib : ib < A.NB)
    (hn2 : ∀ jb, jb < A.NB → A.bsize.get ib * A.bsize.get jb ≤ n2) {y : Arr (Arr R)}
    {jjb : Arr Nat} {J : List Nat} {v : Nat → Nat → R} (hy : y.size = A.NB)
    (hb : ∀ jb, jb < A.NB → (y.get jb).size = n2) (hj : J.length ≤ jjb.size)
    (hjj : ∀ k jb, J[k]? = some jb → jjb.get k = jb) (hlt : ∀ jb ∈ J, jb < A.NB)
    (hv : ∀ jb ∈ J, ∀ k, k < A.bsize.get ib * A.bsize.get jb → (y.get jb).get k = v jb k)
    (sum : K) :
    sumABFlush f above A ib y jjb J.length sum = .ok (sum +
      (J.map fun jb => cut above (∑ ii ∈ Finset.range (A.bsize.get ib),
        ∑ jj ∈ Finset.range (A.bsize.get jb), f (v jb (ii * A.bsize.get jb + jj)))).sum) := by
  unfold sumABFlush
  rw [loop_eq_forList J sum _ (fun jb sum => .ok (sum + cut above
    (∑ ii ∈ Finset.range (A.bsize.get ib), ∑ jj ∈ Finset.range (A.bsize.get jb),
      f (v jb (ii * A.bsize.get jb + jj)))))]
  · exact forList_sum fun _ _ _ => rfl
  · intro k jb s hk
    have hJ : jb ∈ J := List.mem_of_getElem? hk
    have hjb := hlt jb hJ
    have hkl := (List.getElem?_eq_some_iff.1 hk).1
    rw [Arr.read_ok (by omega), Res.bind_ok, hjj k jb hk, Arr.read_ok (by omega), Res.bind_ok,
      Arr.read_ok (by omega), Res.bind_ok, Arr.read_ok (by omega), Res.bind_ok,
      bufSum_eq f (v := v jb) (by rw [hb jb hjb]; exact hn2 jb hjb) (hv jb hJ), Res.bind_ok,
      Res.pure_eq]
    unfold cut
    split
    · rfl
    · rw [add_zero]

variable {A B : EllB R} {L LB : Nat → BRow R} {N : Nat} {a b : Spec.Mat R}

theorem Rows.sumAB_eq [AddCommMonoid K] (hA : A.Rows N L a) (hB : B.Rows N LB b)
    (hMB : A.MB = B.MB) (hNB : A.NB = B.NB) (hfull : A.NB ≤ A.MB)
    (hbs : ∀ k, k < A.NB → A.bsize.get k = B.bsize.get k) (absv : R → K) (h0 : absv 0 = 0)
    (above : K → Bool) (α : R) :
    sumAB absv above α A B =
      .ok (blockSum A.bsize.get A.NB above fun i j => absv (α * a i j * b i j)) := by
  obtain ⟨hgB, hdB⟩ := hB.same_bsize hNB hbs
  obtain ⟨mb, hmb, hle⟩ := maxBsize_spec hA.is.bs_size
  have hn2 : ∀ ib, ib < A.NB → ∀ jb, jb < A.NB → A.bsize.get ib * A.bsize.get jb ≤ mb * mb :=
    fun ib hib jb hjb => Nat.mul_le_mul (hle ib hib) (hle jb hjb)
  unfold sumAB
  rw [hmb, Res.bind_ok, if_neg (by omega)]
  suffices H : (loop A.NB ((⟨A.NB, fun _ => ⟨mb * mb, fun _ => 0⟩⟩ : Arr (Arr R)),
      (⟨A.MB, fun _ => 0⟩ : Arr Nat), (0 : K)) fun ib st => sumABRow absv above α A B ib st).wp False
      (fun st => st.2.2 =
        blockSum A.bsize.get A.NB above fun i j => absv (α * a i j * b i j)) by
    obtain ⟨r, hr, hr2⟩ := Res.wp_exists H
    rw [hr, Res.bind_ok, hr2, Res.pure_eq]
  refine wp_loop' (fun n (st : Arr (Arr R) × Arr Nat × K) => st.1.size = A.NB ∧
      (∀ jb, jb < A.NB → (st.1.get jb).size = mb * mb) ∧ st.2.1.size = A.MB ∧ st.2.2 =
      ∑ ib ∈ Finset.range n, ∑ jb ∈ Finset.range A.NB, cut above
        (∑ ii ∈ Finset.range (A.bsize.get ib), ∑ jj ∈ Finset.range (A.bsize.get jb),
          absv (α * a (off A.bsize.get ib + ii) (off A.bsize.get jb + jj) *
            b (off A.bsize.get ib + ii) (off A.bsize.get jb + jj)))) ?_ ?_ ?_
  · exact ⟨rfl, fun _ _ => rfl, rfl, rfl⟩
  · rintro ib hib ⟨y, jjb, t⟩ ⟨h1, h2, h3, h4⟩
    simp only at h1 h2 h3 h4
    unfold sumABRow
    rw [Res.wp_bind]
    refine Res.wp_mono (wp_sumABLoad hA.is hib (hA.good ib hib) (hn2 ib hib) h1 h2 α) ?_
    rintro ⟨ix, y1⟩ q
    simp only at q ⊢
    rw [Res.wp_bind]
    rw [hNB] at q
    refine Res.wp_mono (wp_sumABTimes hB.is hMB.symm (by rw [← hNB]; exact hA.is.bs_size) (by omega)
      (by rw [← hNB]; exact hgB ib hib) (by rw [← hNB]; exact hn2 ib hib) q h3) ?_
    rintro ⟨y2, jjb2, lb⟩ ⟨J, r1, r2, r3, r4, r5, r6, r7, r8, r9⟩
    simp only at r1 r2 r3 r4 r5 r6 r7 r8 r9 ⊢
    subst r4
    rw [← hNB] at r1 r2
    have hlt : ∀ jb ∈ J, jb < A.NB := by
      intro jb hjb
      obtain ⟨p, hp, rfl⟩ := List.mem_map.1 ((r8 jb).1 hjb).1
      exact (hA.good ib hib).lt p hp
    rw [sumABFlush_eq absv above hA.is.bs_size hib (hn2 ib hib) r1 r2 (by omega) r6 hlt r9,
      Res.bind_ok, Res.pure_eq, Res.wp_ok]
    refine ⟨r1, r2, r3, ?_⟩
    simp only
    rw [h4, Finset.sum_range_succ, sum_list_cols r7 hlt]
    · congr 1
      refine Finset.sum_congr rfl fun jb hjb => ?_
      congr 1
      refine Finset.sum_congr rfl fun ii hii => Finset.sum_congr rfl fun jj hjj => ?_
      simp only [Finset.mem_range] at hii hjj hjb
      rw [hA.den ib jb ii jj hib hjb hii hjj, hdB ib jb ii jj hib hjb hii hjj]
    · intro c hc hcJ
      rw [← cut_zero above]
      congr 1
      refine Finset.sum_eq_zero fun ii hii => Finset.sum_eq_zero fun jj hjj => ?_
      have hor : c ∉ (L ib).map Prod.fst ∨ c ∉ (LB ib).map Prod.fst := by
        by_contra hh
        push Not at hh
        exact hcJ ((r8 c).2 hh)
      rcases hor with hh | hh
      · rw [val_of_not_mem hh, mul_zero, zero_mul, h0]
      · rw [val_of_not_mem hh, mul_zero, h0]
  · rintro ⟨y, jjb, t⟩ ⟨-, -, -, h⟩
    exact h

/-! ## The distance of two matrices -/

theorem fnSearch_spec {A X : EllB R} {L : Nat → BRow R} (h : X.Is L) (hMB : X.MB = A.MB) {ib : Nat}
    (hi : ib < X.NB) (c : Nat) (miss : RPtr R) :
    ∀ fuel kp cur, kp + fuel = (L ib).length →
      (∃ b, (c, b) ∈ L ib ∧ fnSearch A X ib c miss kp fuel cur = .ok (.to b)) ∨
      ((∀ k x, kp ≤ k → (L ib)[k]? = some x → x.1 ≠ c) ∧
        fnSearch A X ib c miss kp fuel cur = .ok (if fuel = 0 then cur else miss)) := by
  intro fuel
  induction fuel with
  | zero =>
    intro kp cur hk
    refine Or.inr ⟨?_, rfl⟩
    intro k x hkk hx
    have := (List.getElem?_eq_some_iff.1 hx).1
    omega
  | succ fuel ih =>
    intro kp cur hk
    obtain ⟨⟨jb, b⟩, hx⟩ : ∃ x, (L ib)[kp]? = some x := ⟨_, List.getElem?_eq_getElem (by omega)⟩
    have e : fnSearch A X ib c miss kp (fuel + 1) cur =
        if c = jb then .ok (.to b) else fnSearch A X ib c miss (kp + 1) fuel miss := by
      rw [fnSearch]
      simp only [ROWMAJOR]
      rw [← hMB, h.index_eq hi hx, Res.bind_ok, h.block_eq hi hx]
      rfl
    rw [e]
    by_cases hc : c = jb
    · subst hc
      rw [if_pos rfl]
      exact Or.inl ⟨b, List.mem_of_getElem? hx, rfl⟩
    · rw [if_neg hc]
      rcases ih (kp + 1) miss (by omega) with ⟨b', h1, h2⟩ | ⟨h1, h2⟩
      · exact Or.inl ⟨b', h1, h2⟩
      · refine Or.inr ⟨?_, ?_⟩
        · intro k x hkk hxx
          rcases Nat.lt_or_ge kp k with hlt | hge
          · exact h1 k x hlt hxx
          · have : k = kp := by omega
            subst this
            rw [hx] at hxx
            obtain rfl := Option.some.inj hxx
            exact Ne.symm hc
        · rw [h2]; simp

theorem fnSearch_cases {A X : EllB R} {L : Nat → BRow R} (h : X.Is L) (hMB : X.MB = A.MB) {ib : Nat}
    (hi : ib < X.NB) (c : Nat) (miss cur : RPtr R) (hne : L ib ≠ []) :
    (∃ b, (c, b) ∈ L ib ∧ fnSearch A X ib c miss 0 (L ib).length cur = .ok (.to b)) ∨
      (c ∉ (L ib).map Prod.fst ∧
        fnSearch A X ib c miss 0 (L ib).length cur = .ok miss) := by
  rcases fnSearch_spec (A := A) h hMB hi c miss (L ib).length 0 cur (by omega) with h1 | ⟨h1, h2⟩
  · exact Or.inl h1
  · refine Or.inr ⟨?_, ?_⟩
    · intro hm
      obtain ⟨p, hp, rfl⟩ := List.mem_map.1 hm
      obtain ⟨k, hk⟩ := List.mem_iff_getElem?.1 hp
      exact h1 k p (by omega) hk rfl
    · rw [h2, if_neg]
      intro h0
      exact hne (List.length_eq_zero_iff.1 h0)

/-- The squares of the differences in block column `jb`. -/
def sqDiff (bs : Nat → Nat) (ib : Nat) (l l' : BRow R) (jb : Nat) : R :=
  ∑ ii ∈ Finset.range (bs ib), ∑ jj ∈ Finset.range (bs jb),
    (val l jb (ii * bs jb + jj) - val l' jb (ii * bs jb + jj)) *
    (val l jb (ii * bs jb + jj) - val l' jb (ii * bs jb + jj))

theorem wp_fnLoopA (hA : A.Rows N L a) (hB : B.Rows N LB b) (hMB : A.MB = B.MB)
    (hNB : A.NB = B.NB) {ib : Nat} (hib : ib < A.NB)
    (hg : GoodRow A.NB A.bsize.get ib (LB ib)) {mb : Nat}
    (hmb : ∀ jb, jb < A.NB → A.bsize.get ib * A.bsize.get jb ≤ mb * mb)
    (hne : L ib ≠ [] → LB ib ≠ []) (rv : RPtr R) (s : R) :
    (fnLoopA mb A B ib (L ib).length (LB ib).length (rv, s)).wp E (fun st =>
      st.2 = s + (((L ib).map Prod.fst).map (sqDiff A.bsize.get ib (L ib) (LB ib))).sum) := by
  unfold fnLoopA
  refine wp_loop' (fun m (st : RPtr R × R) => st.2 = s +
    ((((L ib).take m).map Prod.fst).map (sqDiff A.bsize.get ib (L ib) (LB ib))).sum) ?_ ?_ ?_
  · simp
  · rintro m hm ⟨rv', t⟩ h1
    simp only at h1
    obtain ⟨⟨jb, x⟩, hx⟩ : ∃ x, (L ib)[m]? = some x := ⟨_, List.getElem?_eq_getElem hm⟩
    have hxm : (jb, x) ∈ L ib := List.mem_of_getElem? hx
    have hjb : jb < A.NB := (hA.good ib hib).lt _ hxm
    have htk : (L ib).take (m + 1) = (L ib).take m ++ [(jb, x)] := by
      rw [List.take_add_one, hx]; rfl
    simp only [ROWMAJOR]
    rw [hA.is.index_eq hib hx, Res.bind_ok]
    have key : ∃ r : Arr R, fnSearch A B ib jb (.to ⟨mb * mb, fun _ => 0⟩) 0 (LB ib).length rv' =
        .ok (.to r) ∧ A.bsize.get ib * A.bsize.get jb ≤ r.size ∧
        ∀ k, k < A.bsize.get ib * A.bsize.get jb → r.get k = val (LB ib) jb k := by
      rcases fnSearch_cases (A := A) hB.is hMB.symm (by omega : ib < B.NB) jb
        (.to ⟨mb * mb, fun _ => 0⟩) rv' (hne (List.ne_nil_of_mem hxm)) with ⟨r, h1, h2⟩ | ⟨h1, h2⟩
      · exact ⟨r, h2, hg.size _ h1, fun k _ => (val_of_mem hg.nodup h1 k).symm⟩
      · exact ⟨_, h2, hmb jb hjb, fun k _ => (val_of_not_mem h1 k).symm⟩
    obtain ⟨r, hr, hr1, hr2⟩ := key
    rw [hr, Res.bind_ok, hA.is.block_eq hib hx, Res.bind_ok, hA.is.bsize_eq hib, Res.bind_ok,
      hA.is.bsize_eq hjb, Res.bind_ok]
    simp only
    rw [loop2_sum (g := fun ii jj => (val (L ib) jb (ii * A.bsize.get jb + jj) -
      val (LB ib) jb (ii * A.bsize.get jb + jj)) * (val (L ib) jb (ii * A.bsize.get jb + jj) -
      val (LB ib) jb (ii * A.bsize.get jb + jj)))]
    · rw [Res.bind_ok, Res.pure_eq, Res.wp_ok, htk, h1]
      simp only [List.map_append, List.sum_append, List.map_cons, List.map_nil, List.sum_cons,
        List.sum_nil, add_zero, add_assoc]
      rfl
    · intro ii jj s hii hjj
      have hk := addr_lt hii hjj
      have h3 := (hA.good ib hib).size _ hxm
      simp only at h3
      rw [Arr.read_ok (by omega), Res.bind_ok, Arr.read_ok (by omega), Res.bind_ok, Res.pure_eq,
        val_of_mem (hA.good ib hib).nodup hxm, hr2 _ hk]
  · intro st h
    rw [List.take_length] at h
    exact h

theorem wp_fnLoopB (hA : A.Rows N L a) (hB : B.Rows N LB b) (hMB : A.MB = B.MB)
    (hNB : A.NB = B.NB) {ib : Nat} (hib : ib < A.NB)
    (hg : GoodRow A.NB A.bsize.get ib (LB ib)) (hne : LB ib ≠ [] → L ib ≠ [])
    (hix : ∀ jp jb x, (LB ib)[jp]? = some (jb, x) → jb ∉ (L ib).map Prod.fst →
      A.indexb.get (ib * A.MB + jp) < A.NB ∧
        A.bsize.get (A.indexb.get (ib * A.MB + jp)) = A.bsize.get jb) (rv : RPtr R) (s : R) :
    (fnLoopB A B ib (L ib).length (LB ib).length (rv, s)).wp E (fun st =>
      st.2 = s + ((((LB ib).map Prod.fst).filter fun jb => decide (jb ∉ (L ib).map Prod.fst)).map
        (sqDiff A.bsize.get ib (L ib) (LB ib))).sum) := by
  unfold fnLoopB
  refine wp_loop' (fun m (st : RPtr R × R) => st.2 = s +
    (((((LB ib).take m).map Prod.fst).filter fun jb => decide (jb ∉ (L ib).map Prod.fst)).map
      (sqDiff A.bsize.get ib (L ib) (LB ib))).sum) ?_ ?_ ?_
  · simp
  · rintro m hm ⟨rv', t⟩ h1
    simp only at h1
    obtain ⟨⟨jb, x⟩, hx⟩ : ∃ x, (LB ib)[m]? = some x := ⟨_, List.getElem?_eq_getElem hm⟩
    have hxm : (jb, x) ∈ LB ib := List.mem_of_getElem? hx
    have hjb : jb < A.NB := hg.lt _ hxm
    have htk : (LB ib).take (m + 1) = (LB ib).take m ++ [(jb, x)] := by
      rw [List.take_add_one, hx]; rfl
    have hlt := hB.is.lt_of_slot (by omega : ib < B.NB) hx
    simp only [ROWMAJOR]
    rw [hMB, hB.is.index_eq (by omega : ib < B.NB) hx, Res.bind_ok, ← hMB]
    rcases fnSearch_cases (A := A) hA.is rfl hib jb .null rv'
        (hne (List.ne_nil_of_mem hxm)) with ⟨r, h2, h3⟩ | ⟨h2, h3⟩
    · have hmem : jb ∈ (L ib).map Prod.fst := List.mem_map.2 ⟨_, h2, rfl⟩
      rw [h3, Res.bind_ok]
      simp only
      rw [Res.pure_eq, Res.wp_ok, htk, List.map_append, List.filter_append]
      simp only [List.map_cons, List.map_nil, List.filter_cons, List.filter_nil, hmem,
        not_true, decide_false, Bool.false_eq_true, if_false, List.append_nil]
      exact h1
    · obtain ⟨i1, i2⟩ := hix m jb x hx h2
      rw [h3, Res.bind_ok]
      simp only
      rw [Arr.read_ok (hA.is.addr' hib (by omega)), Res.bind_ok, hMB,
        hB.is.block_eq (by omega : ib < B.NB) hx, Res.bind_ok, ← hMB, hA.is.bsize_eq hib, Res.bind_ok,
        hA.is.bsize_eq i1, Res.bind_ok, i2]
      rw [loop2_sum (g := fun ii jj => (val (L ib) jb (ii * A.bsize.get jb + jj) -
        val (LB ib) jb (ii * A.bsize.get jb + jj)) * (val (L ib) jb (ii * A.bsize.get jb + jj) -
        val (LB ib) jb (ii * A.bsize.get jb + jj)))]
      · rw [Res.bind_ok, Res.pure_eq, Res.wp_ok, htk, h1, List.map_append, List.filter_append]
        simp only [List.map_cons, List.map_nil, List.filter_cons, List.filter_nil, h2,
          not_false_eq_true, decide_true, if_true, List.map_append, List.sum_append, List.sum_cons,
          List.sum_nil, add_zero, add_assoc]
        rfl
      · intro ii jj s hii hjj
        have hk := addr_lt hii hjj
        have h3 := hg.size _ hxm
        simp only at h3
        rw [Arr.read_ok (by omega), Res.bind_ok, Res.pure_eq, val_of_not_mem h2,
          val_of_mem hg.nodup hxm]
        congr 1
        ring
  · intro st h
    rw [List.take_length] at h
    exact h

theorem Rows.fnorm2Sq_eq (hA : A.Rows N L a) (hB : B.Rows N LB b) (hMB : A.MB = B.MB)
    (hNB : A.NB = B.NB) (hbs : ∀ k, k < A.NB → A.bsize.get k = B.bsize.get k)
    (hne : ∀ ib, ib < A.NB → (L ib = [] ↔ LB ib = []))
    (hix : ∀ ib jp jb x, ib < A.NB → (LB ib)[jp]? = some (jb, x) → jb ∉ (L ib).map Prod.fst →
      A.indexb.get (ib * A.MB + jp) < A.NB ∧
        A.bsize.get (A.indexb.get (ib * A.MB + jp)) = A.bsize.get jb) :
    fnorm2Sq A B = .ok (∑ i ∈ Finset.range N, ∑ j ∈ Finset.range N,
      (a i j - b i j) * (a i j - b i j)) := by
  obtain ⟨hgB, hdB⟩ := hB.same_bsize hNB hbs
  obtain ⟨mb, hmb, hle⟩ := maxBsize_spec hA.is.bs_size
  unfold fnorm2Sq
  rw [hmb, Res.bind_ok]
  suffices H : (loop A.NB ((.unset : RPtr R), (0 : R)) fun ib st => do
      let n ← A.nnzb.read ib
      let m ← B.nnzb.read ib
      let st ← fnLoopA mb A B ib n m st
      fnLoopB A B ib n m st : Res (RPtr R × R)).wp False
      (fun st => st.2 = ∑ i ∈ Finset.range N, ∑ j ∈ Finset.range N,
        (a i j - b i j) * (a i j - b i j)) by
    obtain ⟨r, hr, hr2⟩ := Res.wp_exists H
    rw [hr, Res.bind_ok, hr2, Res.pure_eq]
  refine wp_loop' (fun n (st : RPtr R × R) => st.2 = ∑ ib ∈ Finset.range n,
    ∑ jb ∈ Finset.range A.NB, sqDiff A.bsize.get ib (L ib) (LB ib) jb) rfl ?_ ?_
  · rintro ib hib ⟨rv, t⟩ h1
    simp only at h1
    rw [hA.is.nnzb_eq hib, Res.bind_ok, hB.is.nnzb_eq (by omega : ib < B.NB), Res.bind_ok, Res.wp_bind]
    refine Res.wp_mono (wp_fnLoopA hA hB hMB hNB hib (hgB ib hib)
      (fun jb hjb => Nat.mul_le_mul (hle ib hib) (hle jb hjb))
      (fun h h' => h ((hne ib hib).2 h')) rv t) ?_
    rintro ⟨rv2, t2⟩ h2
    simp only at h2
    refine Res.wp_mono (wp_fnLoopB hA hB hMB hNB hib (hgB ib hib)
      (fun h h' => h ((hne ib hib).1 h')) (fun jp jb x => hix ib jp jb x hib) rv2 t2) ?_
    rintro ⟨rv3, t3⟩ h3
    simp only at h3 ⊢
    rw [h3, h2, h1, Finset.sum_range_succ, add_assoc, ← List.sum_append, ← List.map_append]
    congr 1
    refine sum_list_cols ?_ ?_ _ ?_
    · rw [List.nodup_append]
      refine ⟨(hA.good ib hib).nodup, (hgB ib hib).nodup.filter _, ?_⟩
      rintro x hx y hy rfl
      have := (List.mem_filter.1 hy).2
      exact (of_decide_eq_true this) hx
    · intro c hc
      rcases List.mem_append.1 hc with hc | hc
      · obtain ⟨p, hp, rfl⟩ := List.mem_map.1 hc
        exact (hA.good ib hib).lt p hp
      · obtain ⟨p, hp, rfl⟩ := List.mem_map.1 (List.mem_filter.1 hc).1
        exact (hgB ib hib).lt p hp
    · intro c hc hn
      rw [List.mem_append, not_or, List.mem_filter] at hn
      have hl := hn.1
      have hl' : c ∉ (LB ib).map Prod.fst := fun hh => hn.2 ⟨hh, by simpa using hl⟩
      unfold sqDiff
      refine Finset.sum_eq_zero fun ii _ => Finset.sum_eq_zero fun jj _ => ?_
      rw [val_of_not_mem hl, val_of_not_mem hl']
      ring
  · rintro ⟨rv, t⟩ h
    simp only at h ⊢
    rw [h, ← hA.N_eq, sum_off]
    refine Finset.sum_congr rfl fun ib hib => ?_
    rw [Finset.sum_congr rfl fun ii _ => sum_off A.bsize.get _ A.NB, Finset.sum_comm]
    refine Finset.sum_congr rfl fun jb hjb => ?_
    unfold sqDiff
    refine Finset.sum_congr rfl fun ii hii => Finset.sum_congr rfl fun jj hjj => ?_
    simp only [Finset.mem_range] at hib hjb hii hjj
    rw [hA.den ib jb ii jj hib hjb hii hjj, hdB ib jb ii jj hib hjb hii hjj]

end

end EllB

end Bml
