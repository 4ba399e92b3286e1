import Verif.Ellblock.Model5
import Verif.Ellblock.Ops11

/-!
# Block-ELLPACK: norms of two matrices
-/

set_option linter.unusedSectionVars false

namespace Bml

namespace EllB

variable {R K : Type} {E : Prop}

/-- A loop over the blocks of a row whose addresses are computed with the width of another matrix of
the same width. -/
theorem Is.loop_eq {σ : Type} {B : EllB R} {L : Nat → BRow R} (h : B.Is L) {ib : Nat} (hi : ib < B.NB)
    {MB : Nat} (hMB : B.MB = MB) (s : σ) (f : Nat → Nat → σ → Res σ) (g : Nat × Arr R → σ → Res σ)
    (hfg : ∀ jp jb b s, (L ib)[jp]? = some (jb, b) → f (ib * B.MB + jp) jb s = g (jb, b) s)
    (NB : Nat) :
    (do
      let n ← B.nnzb.read ib
      loop n s fun jp s => do
        let jb ← B.indexb.read (ROWMAJOR ib jp NB MB)
        f (ROWMAJOR ib jp NB MB) jb s : Res σ) = forList (L ib) s g := by
  subst hMB
  exact h.eachIdx_eq hi s f g hfg

/-- The sum over a buffer. -/
theorem bufSum_eq [AddCommMonoid K] (f : R → K) {n m : Nat} {x : Arr R} {v : Nat → R}
    (hx : n * m ≤ x.size) (hv : ∀ k, k < n * m → x.get k = v k) :
    bufSum f n m x =
      .ok (∑ ii ∈ Finset.range n, ∑ jj ∈ Finset.range m, f (v (ii * m + jj))) := by
  unfold bufSum
  rw [loop2_sum (g := fun ii jj => f (v (ii * m + jj))), zero_add]
  intro ii jj s hii hjj
  have := addr_lt hii hjj
  simp only [ROWMAJOR]
  rw [Arr.read_ok (by omega), Res.bind_ok, Res.pure_eq, hv _ this]

/-- A block's contribution, if it is above the threshold. -/
def cut [Zero K] (above : K → Bool) (x : K) : K := if above x = true then x else 0

theorem cut_zero [Zero K] (above : K → Bool) : cut above 0 = 0 := by
  unfold cut; split <;> rfl

/-- The sum over the columns of a list. -/
theorem sum_list_cols [AddCommMonoid K] {J : List Nat} {NB : Nat} (hn : J.Nodup)
    (hlt : ∀ c ∈ J, c < NB) (g : Nat → K) (h0 : ∀ c, c < NB → c ∉ J → g c = 0) :
    (J.map g).sum = ∑ c ∈ Finset.range NB, g c := by
  rw [← List.sum_toFinset g hn]
  refine Finset.sum_subset (fun c hc => by simpa using hlt c (by simpa using hc)) ?_
  intro c hc hc'
  exact h0 c (by simpa using hc) (by simpa using hc')

/-! ## Sums of squares of `α A + β B` -/

section
variable [CommRing R]

/-- The buffers: `I` are the marked columns, `J` the listed ones, `v` the contents. -/
structure Sq2.Inv (NB n2 : Nat) (w : Nat → Nat) (s : Sq2 R) (I J : List Nat)
    (v : Nat → Nat → R) : Prop where
  szy : s.y.size = NB
  szi : s.ix.size = NB
  szj : s.jjb.size = NB
  buf : ∀ jb, jb < NB → (s.y.get jb).size = n2
  nodup : J.Nodup
  lt : ∀ jb ∈ J, jb < NB
  jjb : ∀ k jb, J[k]? = some jb → s.jjb.get k = jb
  mark : ∀ jb, jb < NB → (s.ix.get jb = 0 ↔ jb ∉ I)
  val : ∀ jb, jb < NB → ∀ k, k < w jb → (s.y.get jb).get k = v jb k
  zero : ∀ jb, jb < NB → jb ∉ J → ∀ k, k < n2 → (s.y.get jb).get k = 0
  sub : ∀ jb ∈ I, jb ∈ J

theorem Sq2.Inv.room {NB n2 : Nat} {w : Nat → Nat} {s : Sq2 R} {I J : List Nat}
    {v : Nat → Nat → R} (h : s.Inv NB n2 w I J v) {c : Nat} (hc : c < NB) (hJ : c ∉ J) :
    J.length < NB := by
  have := length_lt_of_subset h.nodup (S := Finset.range NB)
    (fun x hx => by simpa using h.lt x hx) hJ (by simpa using hc)
  simpa using this

/-- All buffers are zero and no column is marked. -/
structure Sq2.Clear (NB n2 : Nat) (s : Sq2 R) : Prop where
  szy : s.y.size = NB
  szi : s.ix.size = NB
  szj : s.jjb.size = NB
  buf : ∀ jb, jb < NB → (s.y.get jb).size = n2
  mark : ∀ jb, jb < NB → s.ix.get jb = 0
  zero : ∀ jb, jb < NB → ∀ k, k < n2 → (s.y.get jb).get k = 0

theorem Sq2.Clear.inv {NB n2 : Nat} {s : Sq2 R} (h : s.Clear NB n2) {w : Nat → Nat}
    (hw : ∀ jb, jb < NB → w jb ≤ n2) : s.Inv NB n2 w [] [] (fun _ _ => 0) :=
  ⟨h.szy, h.szi, h.szj, h.buf, List.nodup_nil, by simp, by simp,
    fun jb hjb => by simp [h.mark jb hjb],
    fun jb hjb k hk => h.zero jb hjb k (by have := hw jb hjb; omega),
    fun jb hjb _ k hk => h.zero jb hjb k hk, by simp⟩

theorem Sq2.Inv.congr {NB n2 : Nat} {w : Nat → Nat} {s : Sq2 R} {I J : List Nat}
    {v v' : Nat → Nat → R} (h : s.Inv NB n2 w I J v) (hv : ∀ jb k, v' jb k = v jb k) :
    s.Inv NB n2 w I J v' := by
  have : v' = v := by funext jb k; exact hv jb k
  rw [this]; exact h

theorem wp_sq2Axpy {NB n2 : Nat} {bs : Arr Nat} (hbs : bs.size = NB) {ib : Nat} (hib : ib < NB)
    (hn2 : ∀ jb, jb < NB → bs.get ib * bs.get jb ≤ n2) {s : Sq2 R} {I J : List Nat}
    {v : Nat → Nat → R} (h : s.Inv NB n2 (fun jb => bs.get ib * bs.get jb) I J v) {jb : Nat}
    (hJ : jb ∈ J) (c : R) {b : Arr R} (hb : bs.get ib * bs.get jb ≤ b.size) :
    (sq2Axpy bs ib jb c b s).wp E (fun s' =>
      s'.Inv NB n2 (fun jb => bs.get ib * bs.get jb) I J
        (fun d k => v d k + if jb = d then c * b.get k else 0)) := by
  have hjb := h.lt jb hJ
  have hy : jb < s.y.size := by rw [h.szy]; exact hjb
  unfold sq2Axpy
  rw [Arr.read_ok (by omega), Res.bind_ok, Arr.read_ok (by omega), Res.bind_ok, Arr.read_ok hy,
    Res.bind_ok, Res.wp_bind]
  refine Res.wp_mono (wp_axpyBuf c hb (by rw [h.buf jb hjb]; exact hn2 jb hjb)) ?_
  rintro x' ⟨h1, h2⟩
  simp only [Res.wp_bind, Arr.wp_write, hy, true_and, Res.pure_eq, Res.wp_ok]
  refine ⟨h.szy, h.szi, h.szj, ?_, h.nodup, h.lt, h.jjb, h.mark, ?_, ?_, h.sub⟩
  · intro k hk
    simp only
    by_cases hkj : k = jb
    · subst hkj; rw [upd_same, h1]; exact h.buf k hk
    · rw [upd_ne _ _ hkj]; exact h.buf k hk
  · intro d hd k hk
    simp only
    by_cases hkj : d = jb
    · subst hkj; rw [upd_same, if_pos rfl, h2 k hk, h.val d hd k hk]
    · rw [upd_ne _ _ hkj, if_neg (Ne.symm hkj), add_zero]; exact h.val d hd k hk
  · intro d hd hdJ k hk
    simp only
    rw [upd_ne _ _ (by rintro rfl; exact hdJ hJ)]
    exact h.zero d hd hdJ k hk

theorem Sq2.Inv.list {NB n2 : Nat} {w : Nat → Nat} {s : Sq2 R} {I J : List Nat}
    {v : Nat → Nat → R} (h : s.Inv NB n2 w I J v) {c : Nat} (hc : c < NB) (hJ : c ∉ J) :
    ({ s with jjb := ⟨s.jjb.size, upd s.jjb.get J.length c⟩ } : Sq2 R).Inv NB n2 w I (J ++ [c]) v := by
  refine ⟨h.szy, h.szi, h.szj, h.buf, ?_, ?_, ?_, h.mark, h.val, ?_, ?_⟩
  · rw [List.nodup_append]
    refine ⟨h.nodup, by simp, ?_⟩
    intro a ha b hb
    rw [List.mem_singleton.1 hb]
    rintro rfl
    exact hJ ha
  · intro k hk
    rcases List.mem_append.1 hk with hk | hk
    · exact h.lt k hk
    · rw [List.mem_singleton.1 hk]; exact hc
  · intro k d hk
    simp only
    by_cases hkl : k = J.length
    · subst hkl
      rw [upd_same]
      simpa using hk
    · rw [upd_ne _ _ hkl]
      rw [List.getElem?_append_left] at hk
      · exact h.jjb k d hk
      · have := (List.getElem?_eq_some_iff.1 hk).1
        simp at this
        omega
  · intro d hd hdJ
    exact h.zero d hd (fun hh => hdJ (List.mem_append_left _ hh))
  · intro d hd
    exact List.mem_append_left _ (h.sub d hd)

theorem Sq2.Inv.mark1 {NB n2 : Nat} {w : Nat → Nat} {s : Sq2 R} {I J : List Nat}
    {v : Nat → Nat → R} (h : s.Inv NB n2 w I J v) {c : Nat} (hJ : c ∈ J) :
    ({ s with ix := ⟨s.ix.size, upd s.ix.get c 1⟩ } : Sq2 R).Inv NB n2 w (I ++ [c]) J v := by
  refine ⟨h.szy, h.szi, h.szj, h.buf, h.nodup, h.lt, h.jjb, ?_, h.val, h.zero, ?_⟩
  · intro k hk
    simp only
    by_cases hkj : k = c
    · subst hkj; simp
    · rw [upd_ne _ _ hkj, h.mark k hk]
      simp [hkj]
  · intro d hd
    rcases List.mem_append.1 hd with hd | hd
    · exact h.sub d hd
    · rw [List.mem_singleton.1 hd]; exact hJ

/-- Loading a row of `A`. -/
theorem wp_sq2Load {A : EllB R} {L : Nat → BRow R} (hI : A.Is L) {ib : Nat} (hib : ib < A.NB)
    (hg : GoodRow A.NB A.bsize.get ib (L ib)) {n2 : Nat}
    (hn2 : ∀ jb, jb < A.NB → A.bsize.get ib * A.bsize.get jb ≤ n2) {s : Sq2 R}
    (h : s.Clear A.NB n2) (α : R) :
    (sq2Load α A ib s).wp E (fun st =>
      st.1.Inv A.NB n2 (fun jb => A.bsize.get ib * A.bsize.get jb) ((L ib).map Prod.fst)
        ((L ib).map Prod.fst) (fun jb k => α * val (L ib) jb k) ∧ st.2 = (L ib).length) := by
  unfold sq2Load
  rw [hI.eachIdx_eq hib (s, 0) _ (fun p st => do
    let ix ← st.1.ix.write p.1 1
    let jjb ← st.1.jjb.write st.2 p.1
    let s ← sq2Axpy A.bsize ib p.1 α p.2 { st.1 with ix := ix, jjb := jjb }
    pure (s, st.2 + 1))]
  · refine wp_forList (fun pre (st : Sq2 R × Nat) =>
      st.1.Inv A.NB n2 (fun jb => A.bsize.get ib * A.bsize.get jb) (pre.map Prod.fst)
        (pre.map Prod.fst) (fun jb k => α * val pre jb k) ∧ st.2 = pre.length) ?_ ?_ (fun _ h => h)
    · exact ⟨(h.inv hn2).congr (by simp), rfl⟩
    · rintro pre p post hsp ⟨s', l⟩ ⟨h1, h2⟩
      simp only at h1 h2
      subst h2
      have hp : p ∈ L ib := by rw [hsp]; simp
      have hpb := hg.lt p hp
      have hnew : p.1 ∉ pre.map Prod.fst := by
        have := hg.nodup
        rw [hsp, List.map_append, List.map_cons, List.nodup_append] at this
        intro hh
        exact this.2.2 _ hh _ (by simp) rfl
      have hroom := h1.room hpb hnew
      rw [List.length_map] at hroom
      have h2 := (h1.list hpb hnew).mark1 (c := p.1) (by simp)
      simp only [List.length_map] at h2
      simp only [Res.wp_bind, Arr.wp_write]
      refine ⟨by rw [h1.szi]; exact hpb, by rw [h1.szj]; exact hroom, ?_⟩
      refine Res.wp_mono (wp_sq2Axpy hI.bs_size hib hn2 h2 (by simp) α (hg.size p hp)) ?_
      intro s3 h3
      rw [Res.pure_eq, Res.wp_ok]
      refine ⟨?_, by simp⟩
      rw [List.map_append]
      refine h3.congr ?_
      intro jb k
      rw [val_append, val_cons, val_nil]
      by_cases hh : p.1 = jb
      · rw [if_pos hh, if_pos hh]; ring
      · rw [if_neg hh, if_neg hh]; ring
  · intro jp jb b st hs
    simp only
    rw [hI.block_eq hib hs]
    rfl

/-- Adding a row of `B`. -/
theorem wp_sq2Add {A B : EllB R} {L : Nat → BRow R} (hI : B.Is L)
    (hMB : B.MB = A.MB) (hbs : A.bsize.size = B.NB) {ib : Nat} (hib : ib < B.NB)
    (hg : GoodRow B.NB A.bsize.get ib (L ib)) {n2 : Nat}
    (hn2 : ∀ jb, jb < B.NB → A.bsize.get ib * A.bsize.get jb ≤ n2) {s : Sq2 R} {I : List Nat}
    {v : Nat → Nat → R}
    (h : s.Inv B.NB n2 (fun jb => A.bsize.get ib * A.bsize.get jb) I I v) (β : R) :
    (sq2Add β A B ib (s, I.length)).wp E (fun st => ∃ J,
      st.1.Inv B.NB n2 (fun jb => A.bsize.get ib * A.bsize.get jb) I J
        (fun jb k => v jb k + β * val (L ib) jb k) ∧ st.2 = J.length) := by
  unfold sq2Add
  have e := hI.loop_eq hib hMB (s, I.length) (fun ind jb st => do
      let st ← sq2Note jb st
      let b ← B.block ind
      let s ← sq2Axpy A.bsize ib jb β b st.1
      pure (s, st.2)) (fun p st => do
      let st ← sq2Note p.1 st
      let s ← sq2Axpy A.bsize ib p.1 β p.2 st.1
      pure (s, st.2)) ?_ A.NB
  · rw [e]
    refine wp_forList (fun pre (st : Sq2 R × Nat) => ∃ J : List Nat,
      st.1.Inv B.NB n2 (fun jb => A.bsize.get ib * A.bsize.get jb) I J
        (fun jb k => v jb k + β * val pre jb k) ∧ st.2 = J.length ∧
      ∀ c, c ∈ J ↔ c ∈ I ∨ c ∈ pre.map Prod.fst) ?_ ?_ ?_
    · exact ⟨I, h.congr (by simp), rfl, by simp⟩
    · rintro pre p post hsp ⟨s', l⟩ ⟨J, h1, h2, h3⟩
      simp only at h1 h2
      subst h2
      have hp : p ∈ L ib := by rw [hsp]; simp
      have hpb := hg.lt p hp
      have hnew : p.1 ∉ pre.map Prod.fst := by
        have := hg.nodup
        rw [hsp, List.map_append, List.map_cons, List.nodup_append] at this
        intro hh
        exact this.2.2 _ hh _ (by simp) rfl
      rw [Res.wp_bind]
      refine Res.wp_mono (Q := fun st => ∃ J : List Nat,
        st.1.Inv B.NB n2 (fun jb => A.bsize.get ib * A.bsize.get jb) I J
          (fun jb k => v jb k + β * val pre jb k) ∧ st.2 = J.length ∧
        p.1 ∈ J ∧ ∀ c, c ∈ J ↔ c ∈ I ∨ c ∈ (pre ++ [p]).map Prod.fst) ?_ ?_
      · unfold sq2Note
        simp only [Res.wp_bind, Arr.wp_read]
        refine ⟨by rw [h1.szi]; exact hpb, ?_⟩
        by_cases hm : p.1 ∈ I
        · have ht : s'.ix.get p.1 ≠ 0 := fun hh => (h1.mark p.1 hpb).1 hh hm
          rw [if_neg ht, Res.pure_eq, Res.wp_ok]
          refine ⟨J, h1, rfl, h1.sub _ hm, fun c => ?_⟩
          rw [h3 c]
          simp only [List.map_append, List.mem_append, List.map_cons, List.map_nil,
            List.mem_singleton]
          constructor
          · rintro (hc | hc)
            · exact Or.inl hc
            · exact Or.inr (Or.inl hc)
          · rintro (hc | hc | rfl)
            · exact Or.inl hc
            · exact Or.inr hc
            · exact Or.inl hm
        · have ht : s'.ix.get p.1 = 0 := (h1.mark p.1 hpb).2 hm
          have hJ : p.1 ∉ J := by
            rw [h3]; rintro (hh | hh)
            · exact hm hh
            · exact hnew hh
          have hroom := h1.room hpb hJ
          rw [if_pos ht]
          simp only [Res.wp_bind, Arr.wp_write, Res.pure_eq, Res.wp_ok]
          refine ⟨by rw [h1.szj]; exact hroom, J ++ [p.1], h1.list hpb hJ, by simp, by simp, ?_⟩
          intro c
          simp only [List.map_append, List.mem_append, List.map_cons, List.map_nil,
            List.mem_singleton, h3 c]
          tauto
      · rintro ⟨s2, l2⟩ ⟨J', q1, q2, q3, q4⟩
        simp only at q1 q2 ⊢
        subst q2
        rw [Res.wp_bind]
        refine Res.wp_mono (wp_sq2Axpy hbs hib hn2 q1 q3 β (hg.size p hp)) ?_
        intro s3 r
        rw [Res.pure_eq, Res.wp_ok]
        refine ⟨J', r.congr ?_, rfl, q4⟩
        intro jb k
        rw [val_append, val_cons, val_nil]
        by_cases hh : p.1 = jb
        · rw [if_pos hh, if_pos hh]; ring
        · rw [if_neg hh, if_neg hh]; ring
    · rintro st ⟨J, h1, h2, -⟩
      exact ⟨J, h1, h2⟩
  · intro jp jb b st hs
    simp only
    rw [hI.block_eq hib hs]
    rfl

/-- Summing up a row and clearing its buffers. -/
theorem wp_sq2Flush [AddCommMonoid K] (sq : R → K) (above : K → Bool) {n2 : Nat} {A : EllB R}
    (hbs : A.bsize.size = A.NB) {ib : Nat} (hib : ib < A.NB)
    (hn2 : ∀ jb, jb < A.NB → A.bsize.get ib * A.bsize.get jb ≤ n2) {s : Sq2 R} {I J : List Nat}
    {v : Nat → Nat → R}
    (h : s.Inv A.NB n2 (fun jb => A.bsize.get ib * A.bsize.get jb) I J v) (sum : K) :
    (sq2Flush sq above n2 A ib J.length s sum).wp E (fun st => st.1.Clear A.NB n2 ∧
      st.2 = sum + (J.map fun jb => cut above (∑ ii ∈ Finset.range (A.bsize.get ib),
        ∑ jj ∈ Finset.range (A.bsize.get jb), sq (v jb (ii * A.bsize.get jb + jj)))).sum) := by
  unfold sq2Flush
  set g := fun jb => cut above (∑ ii ∈ Finset.range (A.bsize.get ib),
        ∑ jj ∈ Finset.range (A.bsize.get jb), sq (v jb (ii * A.bsize.get jb + jj))) with hg
  refine wp_loop' (fun m (st : Sq2 R × K) => st.2 = sum + ((J.take m).map g).sum ∧
    st.1.y.size = A.NB ∧ st.1.ix.size = A.NB ∧ st.1.jjb.size = A.NB ∧
    (∀ jb, jb < A.NB → (st.1.y.get jb).size = n2) ∧
    (∀ k jb, m ≤ k → J[k]? = some jb → st.1.jjb.get k = jb) ∧
    (∀ jb, jb < A.NB → (jb ∉ I ∨ jb ∈ J.take m) → st.1.ix.get jb = 0) ∧
    (∀ jb, jb < A.NB → (jb ∉ J ∨ jb ∈ J.take m) → ∀ k, k < n2 → (st.1.y.get jb).get k = 0) ∧
    (∀ jb, jb < A.NB → jb ∉ J.take m → st.1.y.get jb = s.y.get jb)) ?_ ?_ ?_
  · refine ⟨by simp, h.szy, h.szi, h.szj, h.buf, fun k jb _ => h.jjb k jb, ?_, ?_, ?_⟩
    · rintro jb hjb (hh | hh)
      · exact (h.mark jb hjb).2 hh
      · simp at hh
    · rintro jb hjb (hh | hh)
      · exact h.zero jb hjb hh
      · simp at hh
    · intros; rfl
  · rintro m hm ⟨s', t⟩ ⟨h1, h2, h3, h4, h5, h6, h7, h8, h9⟩
    simp only at h1 h2 h3 h4 h5 h6 h7 h8 h9
    obtain ⟨jb, hjbm⟩ : ∃ c, J[m]? = some c := ⟨_, List.getElem?_eq_getElem hm⟩
    have hJ : jb ∈ J := List.mem_of_getElem? hjbm
    have hjb := h.lt jb hJ
    have hlen : J.length ≤ A.NB := by
      have h2 : J.toFinset ⊆ Finset.range A.NB := by
        intro a ha
        simpa using h.lt a (by simpa using ha)
      have h3 := Finset.card_le_card h2
      rw [List.toFinset_card_of_nodup h.nodup] at h3
      simpa using h3
    have htk : J.take (m + 1) = J.take m ++ [jb] := by
      rw [List.take_add_one, hjbm]; rfl
    have hnt : jb ∉ J.take m := by
      have hh := h.nodup
      rw [← List.take_append_drop (m + 1) J, htk, List.append_assoc] at hh
      have := (List.nodup_append.1 hh).2.2
      intro hh'
      exact this jb hh' jb (by simp) rfl
    have hyj := h9 jb hjb hnt
    have hbuf := bufSum_eq sq (n := A.bsize.get ib) (m := A.bsize.get jb) (x := s'.y.get jb)
      (v := v jb) (by rw [h5 jb hjb]; exact hn2 jb hjb)
      (fun k hk => by rw [hyj]; exact h.val jb hjb k hk)
    have hz : zeroBuf n2 (s'.y.get jb) =
        .ok ⟨(s'.y.get jb).size, fun k => if k < n2 then 0 else (s'.y.get jb).get k⟩ :=
      if_pos (by rw [h5 jb hjb])
    simp only [Res.wp_bind, Arr.wp_read]
    refine ⟨by omega, ?_⟩
    rw [h6 m jb (le_refl _) hjbm]
    refine ⟨by omega, by omega, by omega, ?_⟩
    rw [hbuf]
    simp only [Res.wp_ok, Arr.wp_write, hz, Res.pure_eq]
    refine ⟨by omega, by omega, by omega, ?_, h2, h3, h4, ?_, ?_, ?_, ?_, ?_⟩
    · rw [htk, List.map_append, List.sum_append, h1]
      simp only [List.map_cons, List.map_nil, List.sum_cons, List.sum_nil, add_zero, hg]
      unfold cut
      split
      · rw [add_assoc]
      · rw [add_zero]
    · intro c hc
      by_cases hcj : c = jb
      · subst hcj; rw [upd_same]; exact h5 c hc
      · rw [upd_ne _ _ hcj]; exact h5 c hc
    · intro k c hk hc
      rw [upd_ne _ _ (by omega)]
      exact h6 k c (by omega) hc
    · intro c hc hh
      by_cases hcj : c = jb
      · subst hcj; rw [upd_same]
      · rw [upd_ne _ _ hcj]
        refine h7 c hc ?_
        rw [htk, List.mem_append, List.mem_singleton] at hh
        tauto
    · intro c hc hh k hk
      by_cases hcj : c = jb
      · subst hcj; rw [upd_same]; simp [hk]
      · rw [upd_ne _ _ hcj]
        refine h8 c hc ?_ k hk
        rw [htk, List.mem_append, List.mem_singleton] at hh
        tauto
    · intro c hc hh
      rw [htk, List.mem_append, List.mem_singleton] at hh
      have hcj : c ≠ jb := fun e => hh (Or.inr e)
      rw [upd_ne _ _ hcj]
      exact h9 c hc (fun hh' => hh (Or.inl hh'))
  · rintro ⟨s', t⟩ ⟨h1, h2, h3, h4, h5, h6, h7, h8, h9⟩
    simp only at h1 h2 h3 h4 h5 h6 h7 h8 h9
    rw [List.take_length] at h1 h7 h8
    refine ⟨⟨h2, h3, h4, h5, fun jb hjb => h7 jb hjb ?_, fun jb hjb => h8 jb hjb ?_⟩, h1⟩
    · by_cases hm : jb ∈ I
      · exact Or.inr (h.sub jb hm)
      · exact Or.inl hm
    · tauto

/-- The sum over all blocks of the sums over the elements of the block, without the blocks whose sum
is not above the threshold. -/
def blockSum [AddCommMonoid K] (bs : Nat → Nat) (NB : Nat) (above : K → Bool) (f : Nat → Nat → K) : K :=
  ∑ ib ∈ Finset.range NB, ∑ jb ∈ Finset.range NB, cut above (∑ ii ∈ Finset.range (bs ib),
    ∑ jj ∈ Finset.range (bs jb), f (off bs ib + ii) (off bs jb + jj))

variable {A B : EllB R} {L LB : Nat → BRow R} {N : Nat} {a b : Spec.Mat R}

/-- The rows of `B`, read with the block sizes of `A`. -/
theorem Rows.same_bsize (hB : B.Rows N LB b) (hNB : A.NB = B.NB)
    (hbs : ∀ k, k < A.NB → A.bsize.get k = B.bsize.get k) :
    (∀ ib, ib < A.NB → GoodRow A.NB A.bsize.get ib (LB ib)) ∧
    ∀ ib jb ii jj, ib < A.NB → jb < A.NB → ii < A.bsize.get ib → jj < A.bsize.get jb →
      val (LB ib) jb (ii * A.bsize.get jb + jj) =
        b (off A.bsize.get ib + ii) (off A.bsize.get jb + jj) := by
  have hoff : ∀ k, k ≤ A.NB → off B.bsize.get k = off A.bsize.get k := by
    intro k hk
    unfold off
    exact Finset.sum_congr rfl fun j hj => (hbs j (by simp at hj; omega)).symm
  refine ⟨fun ib hib => ?_, fun ib jb ii jj hib hjb hii hjj => ?_⟩
  · have := hB.good ib (by omega)
    refine ⟨this.nodup, fun p hp => by have := this.lt p hp; omega, fun p hp => ?_⟩
    rw [hbs ib hib, hbs p.1 (by have := this.lt p hp; omega)]
    exact this.size p hp
  · have := hB.den ib jb ii jj (by omega) (by omega) (by rw [← hbs ib hib]; exact hii)
      (by rw [← hbs jb hjb]; exact hjj)
    rw [hoff ib (by omega), hoff jb (by omega), ← hbs jb hjb] at this
    exact this

theorem Rows.sumSquares2_eq [AddCommMonoid K] (hA : A.Rows N L a) (hB : B.Rows N LB b)
    (hMB : A.MB = B.MB) (hNB : A.NB = B.NB)
    (hbs : ∀ k, k < A.NB → A.bsize.get k = B.bsize.get k) (sq : R → K) (h0 : sq 0 = 0)
    (above : K → Bool) (α β : R) :
    sumSquares2 sq above α β A B =
      .ok (blockSum A.bsize.get A.NB above fun i j => sq (α * a i j + β * b i j)) := by
  obtain ⟨hgB, hdB⟩ := hB.same_bsize hNB hbs
  obtain ⟨mb, hmb, hle⟩ := maxBsize_spec hA.is.bs_size
  have hn2 : ∀ ib, ib < A.NB → ∀ jb, jb < A.NB → A.bsize.get ib * A.bsize.get jb ≤ mb * mb :=
    fun ib hib jb hjb => Nat.mul_le_mul (hle ib hib) (hle jb hjb)
  unfold sumSquares2
  rw [hmb, Res.bind_ok]
  suffices H : (loop A.NB ((⟨⟨A.NB, fun _ => ⟨mb * mb, fun _ => 0⟩⟩, ⟨A.NB, fun _ => 0⟩,
      ⟨A.NB, fun _ => 0⟩⟩ : Sq2 R), (0 : K))
      fun ib st => sumSq2Row sq above (mb * mb) α β A B ib st).wp False (fun st => st.2 =
        blockSum A.bsize.get A.NB above fun i j => sq (α * a i j + β * b i j)) by
    obtain ⟨r, hr, hr2⟩ := Res.wp_exists H
    rw [hr, Res.bind_ok, hr2, Res.pure_eq]
  refine wp_loop' (fun n (st : Sq2 R × K) => st.1.Clear A.NB (mb * mb) ∧ st.2 =
      ∑ ib ∈ Finset.range n, ∑ jb ∈ Finset.range A.NB, cut above
        (∑ ii ∈ Finset.range (A.bsize.get ib), ∑ jj ∈ Finset.range (A.bsize.get jb),
          sq (α * a (off A.bsize.get ib + ii) (off A.bsize.get jb + jj) +
            β * b (off A.bsize.get ib + ii) (off A.bsize.get jb + jj)))) ?_ ?_ ?_
  · exact ⟨⟨rfl, rfl, rfl, fun _ _ => rfl, fun _ _ => rfl, fun _ _ _ _ => rfl⟩, rfl⟩
  · rintro ib hib ⟨s, t⟩ ⟨h1, h2⟩
    simp only at h1 h2
    unfold sumSq2Row
    rw [Res.wp_bind]
    refine Res.wp_mono (wp_sq2Load hA.is hib (hA.good ib hib) (hn2 ib hib) h1 α) ?_
    rintro ⟨s1, l1⟩ ⟨q1, q2⟩
    simp only at q1 q2
    rw [← List.length_map (f := Prod.fst)] at q2
    subst q2
    rw [Res.wp_bind]
    rw [hNB] at q1
    refine Res.wp_mono (wp_sq2Add hB.is hMB.symm (by rw [← hNB]; exact hA.is.bs_size) (by omega)
      (by rw [← hNB]; exact hgB ib hib) (by rw [← hNB]; exact hn2 ib hib) q1 β) ?_
    rintro ⟨s2, l2⟩ ⟨J, r1, r2⟩
    simp only at r1 r2 ⊢
    subst r2
    rw [← hNB] at r1
    refine Res.wp_mono (wp_sq2Flush sq above hA.is.bs_size hib (hn2 ib hib) r1 t) ?_
    rintro ⟨s3, t3⟩ ⟨u1, u2⟩
    refine ⟨u1, ?_⟩
    simp only at u2 ⊢
    rw [u2, h2, Finset.sum_range_succ, sum_list_cols r1.nodup r1.lt]
    · congr 1
      refine Finset.sum_congr rfl fun jb hjb => ?_
      congr 1
      refine Finset.sum_congr rfl fun ii hii => Finset.sum_congr rfl fun jj hjj => ?_
      simp only [Finset.mem_range] at hii hjj hjb
      rw [hA.den ib jb ii jj hib hjb hii hjj, hdB ib jb ii jj hib hjb hii hjj]
    · intro c hc hcJ
      rw [← cut_zero above]
      congr 1
      refine Finset.sum_eq_zero fun ii hii => Finset.sum_eq_zero fun jj hjj => ?_
      simp only [Finset.mem_range] at hii hjj
      have hk := addr_lt hii hjj
      have e1 := r1.val c hc _ hk
      have e2 := r1.zero c hc hcJ (ii * A.bsize.get c + jj)
        (by have := hn2 ib hib c hc; omega)
      rw [e1] at e2
      rw [e2, h0]
  · rintro ⟨s, t⟩ ⟨-, h⟩
    exact h

end

end EllB

end Bml
