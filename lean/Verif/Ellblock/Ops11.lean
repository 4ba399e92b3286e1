import Verif.Ellblock.Ops10
import Verif.Ellblock.Ops6

/-!
# Block-ELLPACK: sums
-/

set_option linter.unusedSectionVars false

namespace Bml

namespace EllB

variable {R : Type} {E : Prop}

/-! ## Rows that were stored -/

/-- The row `l` stores the column blocks `K` with the values `v`. -/
def RowOK (bs : Nat → Nat) (ib : Nat) (K : List Nat) (v : Nat → Nat → R) (l : BRow R) : Prop :=
  l.map Prod.fst = K ∧ ∀ p ∈ l, bs ib * bs p.1 ≤ p.2.size ∧
    ∀ k, k < bs ib * bs p.1 → p.2.get k = v p.1 k

theorem RowOK.nil (bs : Nat → Nat) (ib : Nat) (v : Nat → Nat → R) : RowOK bs ib [] v [] :=
  ⟨rfl, by simp⟩

theorem RowOK.snoc {bs : Nat → Nat} {ib : Nat} {K : List Nat} {v : Nat → Nat → R} {l : BRow R}
    (h : RowOK bs ib K v l) {jb : Nat} {b : Arr R} (hb : bs ib * bs jb ≤ b.size)
    (hv : ∀ k, k < bs ib * bs jb → b.get k = v jb k) :
    RowOK bs ib (K ++ [jb]) v (l ++ [(jb, b)]) := by
  refine ⟨by rw [List.map_append, h.1]; rfl, ?_⟩
  intro p hp
  rcases List.mem_append.1 hp with hp | hp
  · exact h.2 p hp
  · rw [List.mem_singleton.1 hp]; exact ⟨hb, hv⟩

section
variable [CommRing R]

theorem RowOK.good {bs : Nat → Nat} {ib NB : Nat} {K : List Nat} {v : Nat → Nat → R} {l : BRow R}
    (h : RowOK bs ib K v l) (hn : K.Nodup) (hlt : ∀ c ∈ K, c < NB) : GoodRow NB bs ib l :=
  ⟨by rw [h.1]; exact hn, fun p hp => hlt p.1 (by rw [← h.1]; exact List.mem_map_of_mem hp),
    fun p hp => (h.2 p hp).1⟩

theorem RowOK.val {bs : Nat → Nat} {ib : Nat} {K : List Nat} {v : Nat → Nat → R} {l : BRow R}
    (h : RowOK bs ib K v l) (hn : K.Nodup) (jb : Nat) {k : Nat} (hk : k < bs ib * bs jb) :
    val l jb k = if jb ∈ K then v jb k else 0 := by
  by_cases hm : jb ∈ K
  · rw [if_pos hm]
    have hm' := hm
    rw [← h.1] at hm'
    obtain ⟨p, hp, rfl⟩ := List.mem_map.1 hm'
    rw [val_of_mem (by rw [h.1]; exact hn) (b := p.2) hp]
    exact (h.2 p hp).2 k hk
  · rw [if_neg hm, val_of_not_mem]
    rw [h.1]; exact hm

/-- What a stored row holds. -/
theorem RowOK.val_kept {bs : Nat → Nat} {ib : Nat} {J : List Nat} {v : Nat → Nat → R}
    {l : BRow R} {big : R → Bool} {diag : Bool}
    (h : RowOK bs ib (kept big diag ib (fun jb => bs ib * bs jb) v J) v l) (hn : J.Nodup)
    (hout : ∀ jb, jb ∉ J → ∀ k, v jb k = 0) (jb : Nat) {k : Nat} (hk : k < bs ib * bs jb)
    [Decidable ((diag = true ∧ jb = ib) ∨ ∃ k, k < bs ib * bs jb ∧ big (v jb k) = true)] :
    EllB.val l jb k =
      if (diag = true ∧ jb = ib) ∨ ∃ k, k < bs ib * bs jb ∧ big (v jb k) = true
      then v jb k else 0 := by
  rw [h.val (hn.filter _) jb hk]
  by_cases hJ : jb ∈ J
  · by_cases hc : (diag = true ∧ jb = ib) ∨ ∃ k, k < bs ib * bs jb ∧ big (v jb k) = true
    · rw [if_pos hc, if_pos]
      exact List.mem_filter.2 ⟨hJ, by simpa using hc⟩
    · rw [if_neg hc, if_neg]
      intro hm
      exact hc (by simpa using (List.mem_filter.1 hm).2)
  · have hz := hout jb hJ k
    rw [hz]; simp

end

/-! ## Rows and cells -/

/-- The row `l` is stored in the cells of row `ib`. -/
def RowT (A : EllB R) (T : Nat → Option (Arr R)) (ib : Nat) (l : BRow R) : Prop :=
  l.length ≤ A.MB ∧ ∀ jp jb b, l[jp]? = some (jb, b) →
    A.indexb.get (ib * A.MB + jp) = jb ∧ T (ib * A.MB + jp) = some b

theorem Slots.is {A : EllB R} {T : Nat → Option (Arr R)} (h : A.Slots T) {L : Nat → BRow R}
    (hbs : A.bsize.size = A.NB) (hnzs : A.nnzb.size = A.NB) (hixs : A.indexb.size = A.NB * A.MB)
    (hps : A.ptr.size = A.NB * A.MB) (hnz : ∀ ib, ib < A.NB → A.nnzb.get ib = (L ib).length)
    (hr : ∀ ib, ib < A.NB → A.RowT T ib (L ib)) : A.Is L := by
  refine ⟨hbs, hnzs, hixs, hps, hnz, fun ib hib => (hr ib hib).1, ?_, ?_, h.fresh⟩
  · intro ib jp jb b hib hs
    obtain ⟨h1, h2⟩ := (hr ib hib).2 jp jb b hs
    obtain ⟨hjp, -⟩ := List.getElem?_eq_some_iff.1 hs
    have := (hr ib hib).1
    exact ⟨h1, h.live _ b (by rw [hps]; exact addr_lt hib (by omega)) h2⟩
  · intro ib jp ib' jp' hib hjp hib' hjp' he
    have hm := (hr ib hib).1
    have hm' := (hr ib' hib').1
    have hlt : ib * A.MB + jp < A.ptr.size := by rw [hps]; exact addr_lt hib (by omega)
    have hlt' : ib' * A.MB + jp' < A.ptr.size := by rw [hps]; exact addr_lt hib' (by omega)
    obtain ⟨⟨jb, b⟩, hx⟩ : ∃ x, (L ib)[jp]? = some x := ⟨_, List.getElem?_eq_getElem hjp⟩
    obtain ⟨a, ha, -⟩ := h.live _ b hlt ((hr ib hib).2 jp jb b hx).2
    exact addr_inj (by omega) (by omega) (h.own _ _ a hlt hlt' ha (he ▸ ha))

theorem Is.rowT [CommRing R] {A : EllB R} {T : Nat → Option (Arr R)} {L : Nat → BRow R} (h : A.Is L)
    (hS : A.Slots T) {ib : Nat} (hib : ib < A.NB) : A.RowT T ib (L ib) := by
  refine ⟨h.le ib hib, fun jp jb b hs => ?_⟩
  obtain ⟨h1, x, h2, h3⟩ := h.slot ib jp jb b hib hs
  refine ⟨h1, hS.tgt ?_ h2 h3⟩
  have := h.le ib hib
  obtain ⟨hjp, -⟩ := List.getElem?_eq_some_iff.1 hs
  rw [h.ptr_size]
  exact addr_lt hib (by omega)

/-! ## Addition -/

theorem maxBsize_spec {A : EllB R} (h : A.bsize.size = A.NB) :
    ∃ m, A.maxBsize = .ok m ∧ ∀ ib, ib < A.NB → A.bsize.get ib ≤ m := by
  unfold maxBsize
  refine Res.wp_exists (wp_loop' (fun n (m : Nat) => ∀ ib, ib < n → A.bsize.get ib ≤ m) (by simp) ?_ (fun _ h => h))
  intro ib hib m hm
  rw [Arr.read_ok (by rw [h]; exact hib), Res.bind_ok, Res.pure_eq, Res.wp_ok]
  intro k hk
  rcases Nat.lt_succ_iff_lt_or_eq.1 hk with hk | rfl
  · exact le_trans (hm k hk) (le_max_left _ _)
  · exact le_max_right _ _

/-- The state while row `ib` is stored: `K` has been stored, everything else is as in `A`, `T`. -/
structure Storing (A : EllB R) (T : Nat → Option (Arr R)) (ib : Nat) (v : Nat → Nat → R)
    (K : List Nat) (A' : EllB R) (T' : Nat → Option (Arr R)) (l : BRow R) : Prop where
  same : Same A A'
  nz : A'.nnzb = A.nnzb
  ixs : A'.indexb.size = A.indexb.size
  ps : A'.ptr.size = A.ptr.size
  slots : A'.Slots T'
  ok : RowOK A.bsize.get ib K v l
  row : A'.RowT T' ib l
  ixr : ∀ k, (∀ jp, jp < K.length → k ≠ ib * A.MB + jp) → A'.indexb.get k = A.indexb.get k
  tr : ∀ k, (∀ jp, jp < K.length → k ≠ ib * A.MB + jp) → T' k = T k
  size : ∀ jp b, jp < K.length → T' (ib * A.MB + jp) = some b →
    (T (ib * A.MB + jp) = none ∧ ∃ c ∈ K, b.size = A.bsize.get ib * A.bsize.get c) ∨
    ∃ d, T (ib * A.MB + jp) = some d ∧ d.size = b.size

section
variable [CommRing R]

theorem wp_putAdd {A : EllB R} {T : Nat → Option (Arr R)} {ib : Nat} {v : Nat → Nat → R}
    {K : List Nat} {A' : EllB R} {T' : Nat → Option (Arr R)} {l : BRow R}
    (hps : A.ptr.size = A.NB * A.MB) (hixs : A.indexb.size = A.NB * A.MB)
    (h : Storing A T ib v K A' T' l) (hib : ib < A.NB) (hK : K.length < A.MB) {jb : Nat}
    (hfit : ∀ d, T (ib * A.MB + K.length) = some d → A.bsize.get ib * A.bsize.get jb ≤ d.size)
    {x : Arr R} (hx : A.bsize.get ib * A.bsize.get jb ≤ x.size)
    (hv : ∀ k, k < A.bsize.get ib * A.bsize.get jb → x.get k = v jb k) (junk : Nat → R) :
    (putAdd junk ib K.length jb (A.bsize.get ib * A.bsize.get jb) x A').wp E
      (fun A2 => ∃ T2 l2, Storing A T ib v (K ++ [jb]) A2 T2 l2) := by
  unfold putAdd
  have hMB := h.same.MB
  set kb := ib * A.MB + K.length with hkb
  have hrm : ROWMAJOR ib K.length A'.NB A'.MB = kb := by
    simp only [ROWMAJOR]; rw [hMB]
  have hkA : kb < A'.ptr.size := by rw [h.ps, hps]; exact addr_lt hib hK
  have hkI : kb < A'.indexb.size := by rw [h.ixs, hixs]; exact addr_lt hib hK
  have hTk : T' kb = T kb := h.tr kb (fun jp hjp => by rw [hkb]; omega)
  have hlen : l.length = K.length := by rw [← h.ok.1, List.length_map]
  simp only
  rw [hrm]
  -- the block the values go to
  have hpre : ∃ A1 d, A'.ensure junk (A.bsize.get ib * A.bsize.get jb) kb = .ok A1 ∧ A1.Slots (upd T' kb (some d)) ∧ Same A' A1 ∧ A1.nnzb = A'.nnzb ∧
      A1.indexb = A'.indexb ∧ A1.ptr.size = A'.ptr.size ∧
      A.bsize.get ib * A.bsize.get jb ≤ d.size ∧
      ((T kb = none ∧ d.size = A.bsize.get ib * A.bsize.get jb) ∨ ∃ e, T kb = some e ∧
        e.size = d.size) := by
    cases hT : T kb with
    | none =>
      obtain ⟨A1, e, q1, q2, q3, q4, q5⟩ := h.slots.alloc hkA
        ⟨A.bsize.get ib * A.bsize.get jb, junk⟩
      refine ⟨A1, _, ?_, q1, q2, q3, q4, q5, le_refl _, Or.inl ⟨rfl, rfl⟩⟩
      unfold ensure
      rw [h.slots.read_none hkA (hTk.trans hT), Res.bind_ok]
      exact e
    | some d =>
      obtain ⟨a, ha⟩ := h.slots.read_some hkA (hTk.trans hT)
      refine ⟨A', d, ?_, h.slots.congr (fun k _ => ?_), Same.refl _, rfl, rfl, rfl,
        hfit d hT, Or.inr ⟨d, rfl, rfl⟩⟩
      · unfold ensure
        rw [ha, Res.bind_ok]
      · by_cases hk : k = kb
        · subst hk; rw [upd_same, hTk, hT]
        · rw [upd_ne _ _ hk]
  obtain ⟨A1, d, e1, q1, q2, q3, q4, q5, q6, q7⟩ := hpre
  rw [e1, Res.bind_ok]
  have hk1 : kb < A1.ptr.size := by rw [q5]; exact hkA
  have hb := q1.block hk1 (b := d) (upd_same _ _ _)
  rw [hb, Res.bind_ok]
  unfold copyTo
  rw [if_pos ⟨hx, q6⟩, Res.bind_ok]
  set d' : Arr R := ⟨d.size, fun k => if k < A.bsize.get ib * A.bsize.get jb then x.get k
    else d.get k⟩ with hd'
  obtain ⟨A2, e2, r1, r2, r3, r4, r5⟩ := q1.putBlock hk1 (b := d) (upd_same _ _ _) d'
  rw [e2, Res.bind_ok]
  unfold setIndex
  rw [Arr.write_ok _ (by rw [r4, q4]; exact hkI), Res.bind_ok, Res.pure_eq, Res.wp_ok]
  have hT2 : ∀ k, upd (upd T' kb (some d)) kb (some d') k = if k = kb then some d' else T' k := by
    intro k
    by_cases hk : k = kb
    · subst hk; rw [upd_same, if_pos rfl]
    · rw [upd_ne _ _ hk, upd_ne _ _ hk, if_neg hk]
  have hs2 : Same A A2 := h.same.trans (q2.trans r2)
  refine ⟨upd (upd T' kb (some d)) kb (some d'), l ++ [(jb, d')], ⟨?_, ?_, ?_, ?_, ?_, ?_, ?_, ?_, ?_, ?_⟩⟩
  · exact ⟨hs2.N, hs2.M, hs2.NB, hs2.MB, hs2.bsize⟩
  · show A2.nnzb = A.nnzb
    rw [r3, q3, h.nz]
  · show A2.indexb.size = _
    rw [r4, q4, h.ixs]
  · show A2.ptr.size = _
    rw [r5, q5, h.ps]
  · exact r1.of_eq rfl rfl rfl
  · refine h.ok.snoc q6 ?_
    intro k hk
    rw [hd']
    simp only
    rw [if_pos hk, hv k hk]
  · refine ⟨?_, ?_⟩
    · show (l ++ [(jb, d')]).length ≤ A2.MB
      rw [hs2.MB, List.length_append, hlen]
      exact hK
    · intro jp c b hs
      show upd A2.indexb.get kb jb (ib * A2.MB + jp) = c ∧ _ = some b
      rw [hs2.MB]
      rw [hT2]
      rcases Nat.lt_or_ge jp l.length with hl | hl
      · rw [List.getElem?_append_left hl] at hs
        obtain ⟨w1, w2⟩ := h.row.2 jp c b hs
        rw [hMB] at w1 w2
        have hne : ib * A.MB + jp ≠ kb := by rw [hkb]; omega
        rw [if_neg hne, upd_ne _ _ hne, r4, q4]
        exact ⟨w1, w2⟩
      · rw [List.getElem?_append_right hl] at hs
        have hz : jp - l.length = 0 := by
          rcases Nat.eq_zero_or_pos (jp - l.length) with h0 | h0
          · exact h0
          · rw [List.getElem?_eq_none (by simp; omega)] at hs; cases hs
        rw [hz] at hs
        simp only [List.getElem?_cons_zero, Option.some.injEq, Prod.mk.injEq] at hs
        obtain ⟨rfl, rfl⟩ := hs
        have : ib * A.MB + jp = kb := by rw [hkb]; omega
        rw [this, upd_same, if_pos rfl]
        exact ⟨rfl, rfl⟩
  · intro k hk
    have hne : k ≠ kb := hk K.length (by simp)
    show upd A2.indexb.get kb jb k = _
    rw [upd_ne _ _ hne, r4, q4]
    exact h.ixr k (fun jp hjp => hk jp (by simp; omega))
  · intro k hk
    have hne : k ≠ kb := hk K.length (by simp)
    rw [hT2, if_neg hne]
    exact h.tr k (fun jp hjp => hk jp (by simp; omega))
  · intro jp b hjp hb
    rw [hT2] at hb
    rw [List.length_append, List.length_singleton] at hjp
    by_cases hj : jp = K.length
    · subst hj
      rw [if_pos rfl] at hb
      cases hb
      rcases q7 with ⟨z1, z2⟩ | ⟨e, z1, z2⟩
      · exact Or.inl ⟨z1, jb, by simp, z2⟩
      · exact Or.inr ⟨e, z1, z2⟩
    · rw [if_neg (by rw [hkb]; omega)] at hb
      rcases h.size jp b (by omega) hb with ⟨z1, c, z2, z3⟩ | z
      · exact Or.inl ⟨z1, c, by simp [z2], z3⟩
      · exact Or.inr z

/-- The values of the sum, by column block and position in the block. -/
def sumVal (L L' : Nat → BRow R) (α β : R) (ib jb k : Nat) : R :=
  α * val (L ib) jb k + β * val (L' ib) jb k

/-- The column blocks that take part in a row of the sum, in the order of their first occurrence. -/
def touched (nz : R → Bool) (L L' : Nat → BRow R) (α β : R) (ib : Nat) : List Nat :=
  (if nz β = true then (L' ib).map Prod.fst else []).foldl join
    ((if nz α = true then (L ib).map Prod.fst else []).foldl join [])

/-- The column blocks stored in a row of the sum. -/
def addCols (nz big : R → Bool) (bs : Nat → Nat) (L L' : Nat → BRow R) (α β : R) (ib : Nat) :
    List Nat :=
  kept big false ib (fun jb => bs ib * bs jb) (sumVal L L' α β ib) (touched nz L L' α β ib)

theorem wp_addRow {A0 A B : EllB R} {L L' : Nat → BRow R} {T : Nat → Option (Arr R)} {ib : Nat}
    (hs : Same A0 A) (hI : A.Is L) (hB : B.Is L') (hS : A.Slots T) (hNB : B.NB = A0.NB)
    (hMB : B.MB = A0.MB) (hib : ib < A0.NB) (hg : GoodRow A0.NB A0.bsize.get ib (L ib))
    (hg' : GoodRow A0.NB A0.bsize.get ib (L' ib)) {n2 : Nat}
    (hn2 : ∀ jb, jb < A0.NB → A0.bsize.get ib * A0.bsize.get jb ≤ n2) {s : BScr R}
    (hc : s.Clean A0.NB n2) {nz : R → Bool} (hnz : ∀ c, nz c = false → c = 0) (big : R → Bool)
    (junk : Nat → R) (α β : R)
    (hlen : (addCols nz big A0.bsize.get L L' α β ib).length ≤ A0.MB)
    (hfit : ∀ jp c d, (addCols nz big A0.bsize.get L L' α β ib)[jp]? = some c →
      T (ib * A0.MB + jp) = some d → A0.bsize.get ib * A0.bsize.get c ≤ d.size) :
    (addRow nz big junk B α β ib A s).wp E (fun st => st.2.Clean A0.NB n2 ∧ ∃ T' l,
      Storing { A with nnzb := ⟨A.nnzb.size, upd A.nnzb.get ib
          (addCols nz big A0.bsize.get L L' α β ib).length⟩ } T ib (sumVal L L' α β ib)
        (addCols nz big A0.bsize.get L L' α β ib) st.1 T' l ∧
      (touched nz L L' α β ib).Nodup ∧ (∀ c ∈ touched nz L L' α β ib, c < A0.NB) ∧
      ∀ jb, jb ∉ touched nz L L' α β ib → ∀ k, sumVal L L' α β ib jb k = 0) := by
  unfold addRow
  have eNB := hs.NB
  have eMB := hs.MB
  have ebs := hs.bsize
  have hbss : A0.bsize.size = A0.NB := by rw [← ebs, hI.bs_size, eNB]
  have hib1 : ib < A.NB := by rw [eNB]; exact hib
  have hib2 : ib < B.NB := by rw [hNB]; exact hib
  simp only [Res.wp_bind]
  -- the first matrix
  have st1 : (accumIf nz A.bsize A.MB A ib α (s, 0)).wp E
      (fun st => st.1.Holds A0.NB n2 (fun jb => A0.bsize.get ib * A0.bsize.get jb)
        ((if nz α = true then (L ib).map Prod.fst else []).foldl join [])
        (fun jb k => α * val (L ib) jb k) ∧
        st.2 = ((if nz α = true then (L ib).map Prod.fst else []).foldl join []).length) := by
    unfold accumIf
    by_cases hα : nz α = true
    · rw [if_pos hα, if_pos hα]
      have := wp_accumBlocks (E := E) hI hib1 (bs := A.bsize) hI.bs_size
        (by rw [eNB, ebs]; exact hg) rfl (n2 := n2) (by rw [eNB, ebs]; exact hn2)
        (J := []) (by rw [eNB]; exact hc.holds _) α
      refine Res.wp_mono this ?_
      rintro st ⟨q1, q2⟩
      rw [eNB, ebs] at q1
      exact ⟨q1.congr (by simp), q2⟩
    · rw [if_neg hα, if_neg hα, Res.wp_ok]
      refine ⟨(hc.holds _).congr (fun jb k => ?_), rfl⟩
      rw [hnz α (by simpa using hα), zero_mul]
  refine Res.wp_mono st1 ?_
  rintro ⟨s1, l1⟩ ⟨h1, h1'⟩
  simp only at h1 h1'
  subst h1'
  -- the second matrix
  have st2 : (accumIf nz A.bsize A.MB B ib β (s1,
      ((if nz α = true then (L ib).map Prod.fst else []).foldl join []).length)).wp E
      (fun st => st.1.Holds A0.NB n2 (fun jb => A0.bsize.get ib * A0.bsize.get jb)
        (touched nz L L' α β ib) (sumVal L L' α β ib) ∧
        st.2 = (touched nz L L' α β ib).length) := by
    unfold touched sumVal accumIf
    by_cases hβ : nz β = true
    · rw [if_pos hβ, if_pos hβ]
      have := wp_accumBlocks (E := E) hB hib2 (bs := A.bsize) (by rw [hI.bs_size, eNB, hNB])
        (by rw [hNB, ebs]; exact hg') (hMB.trans eMB.symm) (n2 := n2) (by rw [hNB, ebs]; exact hn2)
        (by rw [hNB, ebs]; exact h1) β
      refine Res.wp_mono this ?_
      rintro st ⟨q1, q2⟩
      rw [hNB, ebs] at q1
      exact ⟨q1, q2⟩
    · rw [if_neg hβ, if_neg hβ, Res.wp_ok]
      refine ⟨h1.congr (fun jb k => ?_), rfl⟩
      rw [hnz β (by simpa using hβ), zero_mul, add_zero]
  refine Res.wp_mono st2 ?_
  rintro ⟨s2, l2⟩ ⟨h2, h2'⟩
  simp only at h2 h2' ⊢
  subst h2'
  have hnzs : ib < A.nnzb.size := by rw [hI.nz_size]; exact hib1
  unfold setNnzb
  rw [Arr.write_ok _ hnzs]
  simp only [Res.wp_bind, Res.wp_ok, Res.pure_eq, Res.bind_ok]
  set A1 : EllB R := { A with nnzb := ⟨A.nnzb.size, upd A.nnzb.get ib
    (touched nz L L' α β ib).length⟩ } with hA1
  have e1 : A1.bsize = A0.bsize := ebs
  have hK : kept big false ib (fun jb => A0.bsize.get ib * A0.bsize.get jb) (sumVal L L' α β ib)
    (touched nz L L' α β ib) = addCols nz big A0.bsize.get L L' α β ib := rfl
  have hfl := wp_flush (E := E) h2 hbss hib hn2 big false (wn := id) (fun _ h => h)
    (putAdd junk ib) A1 (fun K A' => ∃ T' l, Storing A1 T ib (sumVal L L' α β ib) K A' T' l) ?_ ?_
  · rw [show flush big false id (putAdd junk ib) A0.bsize =
      flush big false id (putAdd junk ib) A1.bsize by rw [e1]] at hfl
    refine Res.wp_mono hfl ?_
    rintro ⟨A2, s3, ll⟩ ⟨⟨T', l, g1⟩, g2, g3⟩
    simp only at g1 g2 g3 ⊢
    rw [hK] at g1 g3
    have hnz2 : ib < A2.nnzb.size := by
      rw [g1.nz]; exact hnzs
    rw [Arr.write_ok _ hnz2, Res.wp_ok]
    refine ⟨g2, T', l, ?_, h2.nodup, h2.lt, h2.out⟩
    subst g3
    refine ⟨⟨g1.same.N, g1.same.M, g1.same.NB, g1.same.MB, g1.same.bsize⟩, ?_, g1.ixs, g1.ps,
      g1.slots.of_eq rfl rfl rfl, g1.ok, g1.row, g1.ixr, g1.tr, g1.size⟩
    simp only
    rw [g1.nz]
    simp only [hA1]
    congr 1
    funext k
    by_cases hk : k = ib
    · subst hk; rw [upd_same, upd_same]
    · rw [upd_ne _ _ hk, upd_ne _ _ hk, upd_ne _ _ hk]
  · refine ⟨T, [], ⟨Same.refl _, rfl, rfl, rfl, hS.of_eq rfl rfl rfl, RowOK.nil _ _ _,
      ⟨Nat.zero_le _, by simp⟩, fun _ _ => rfl, fun _ _ => rfl, by simp⟩⟩
  · rintro pre jb post A' x hsp ⟨T', l, g1⟩ hjb hx hv
    rw [hK] at hsp
    have hpl : pre.length < A0.MB := by
      have : (addCols nz big A0.bsize.get L L' α β ib).length = pre.length + (post.length + 1) := by
        rw [hsp, List.length_append, List.length_cons]
      omega
    have := wp_putAdd (E := E) (A := A1) (hI.ptr_size) (hI.ix_size) g1 hib1
      (by show pre.length < A.MB; rw [eMB]; exact hpl) (jb := jb) (x := x)
      (by
        intro d hd
        show A.bsize.get ib * A.bsize.get jb ≤ d.size
        rw [ebs]
        refine hfit pre.length jb d (by rw [hsp]; simp) ?_
        rw [← eMB]; exact hd)
      (by show A.bsize.get ib * A.bsize.get jb ≤ x.size; rw [ebs, hx]; exact hn2 jb hjb)
      (by show ∀ k, k < A.bsize.get ib * A.bsize.get jb → _; rw [ebs]; exact hv) junk
    have e2 : A1.bsize.get ib * A1.bsize.get jb = A0.bsize.get ib * A0.bsize.get jb := by rw [e1]
    rw [e2] at this
    exact this

end

end EllB

end Bml
