import Verif.Ellblock.Ops19

/-!
# Block-ELLPACK: transposition in place
-/

set_option linter.unusedSectionVars false

namespace Bml

namespace EllB

variable {R : Type} [CommRing R] {E : Prop}

/-- The content of an untouched block of row `r`. -/
def gu (bs : Nat → Nat) (r : Nat) (p : Nat × Arr R) : Nat × (Nat → R) :=
  (p.1, fun k => if k < bs r * bs p.1 then p.2.get k else 0)

/-- The content a transposed block of row `r` had before. -/
def gt (bs : Nat → Nat) (r : Nat) (p : Nat × Arr R) : Nat × (Nat → R) :=
  (p.1, fun k => if k < bs p.1 * bs r then p.2.get (k % bs r * bs p.1 + k / bs r) else 0)

theorem gt_of_TB {bs : Nat → Nat} {r c : Nat} {b b' : Arr R} (h : TB (bs r) (bs c) b b') :
    gt bs c (r, b') = (r, (gu bs r (c, b)).2) := by
  unfold gt gu
  congr 1
  funext k
  simp only
  split
  · next hk =>
    have h0 : 0 < bs c := by
      rcases Nat.eq_zero_or_pos (bs c) with h0 | h0
      · rw [h0] at hk; omega
      · exact h0
    have hd : k / bs c < bs r := Nat.div_lt_of_lt_mul (by rw [Nat.mul_comm]; exact hk)
    rw [h (k / bs c) (k % bs c) hd (Nat.mod_lt _ h0)]
    congr 1
    rw [Nat.mul_comm]
    exact Nat.div_add_mod _ _
  · rfl

theorem fst_gu (bs : Nat → Nat) (r : Nat) (l : BRow R) :
    (l.map (gu bs r)).map Prod.fst = l.map Prod.fst := by
  rw [List.map_map]; rfl

theorem fst_gt (bs : Nat → Nat) (r : Nat) (l : BRow R) :
    (l.map (gt bs r)).map Prod.fst = l.map Prod.fst := by
  rw [List.map_map]; rfl

theorem map_upd {α β : Type} (f : Nat → List α → β) (P : Nat → List α) (c : Nat) (x : List α) :
    (fun s => f s (upd P c x s)) = upd (fun s => f s (P s)) c (f c x) := by
  funext s
  by_cases h : s = c
  · subst h; rw [upd_same, upd_same]
  · rw [upd_ne _ _ h, upd_ne _ _ h]

/-- The invariant of the in-place transposition: row `r` is `P r ++ U r`, the blocks of `P r` are
transposed, those of `U r` still untouched. -/
structure TrB (A0 : EllB R) (L0 : Nat → BRow R) (A : EllB R) (nzt : Arr Nat) (P U : Nat → BRow R) :
    Prop where
  same : Same A0 A
  g : Ell.Ghost (R := Nat → R) A0.NB (fun r => (L0 r).map (gu A0.bsize.get r))
    (fun r => (P r).map (gt A0.bsize.get r)) (fun r => (U r).map (gu A0.bsize.get r))
  x : ∀ r, r < A0.NB → ∀ c, c ∈ (P r).map Prod.fst → c ∉ (U r).map Prod.fst
  sz : ∀ r, r < A0.NB → ∀ p, p ∈ P r ∨ p ∈ U r → A0.bsize.get r * A0.bsize.get p.1 ≤ p.2.size
  part : A.Part (fun r => P r ++ U r)
  ns : A.nnzb.size = A0.NB
  nz : ∀ r, r < A0.NB → A.nnzb.get r = (P r ++ U r).length
  nzs : nzt.size = A0.NB
  nzg : ∀ r, r < A0.NB → nzt.get r = (P r).length

section
variable {A0 A : EllB R} {L0 P U : Nat → BRow R} {nzt : Arr Nat}

theorem TrB.read_nzt (h : TrB A0 L0 A nzt P U) {r : Nat} (hr : r < A0.NB) :
    nzt.read r = .ok (P r).length := by
  rw [Arr.read_ok (by rw [h.nzs]; exact hr), h.nzg r hr]

theorem TrB.read_nnzb (h : TrB A0 L0 A nzt P U) {r : Nat} (hr : r < A0.NB) :
    A.nnzb.read r = .ok (P r ++ U r).length := by
  rw [Arr.read_ok (by rw [h.ns]; exact hr), h.nz r hr]

theorem TrB.col (h : TrB A0 L0 A nzt P U) {r c : Nat} {b : Arr R} (hr : r < A0.NB)
    (hm : (c, b) ∈ U r) : c < A0.NB ∧ c ∈ (L0 r).map Prod.fst := by
  have := h.g.us r hr c _ (List.mem_map.2 ⟨_, hm, rfl⟩)
  refine ⟨this.1, ?_⟩
  have h2 : c ∈ ((L0 r).map (gu A0.bsize.get r)).map Prod.fst := List.mem_map.2 ⟨_, this.2, rfl⟩
  rwa [fst_gu] at h2

/-- The block rows and block columns with the same number fit together. -/
def SymFit (L0 : Nat → BRow R) (NB MB : Nat) : Prop :=
  ∀ j, j < NB → ∃ S : Finset Nat, S.card ≤ MB ∧ ∀ c, c < NB →
    (c ∈ (L0 j).map Prod.fst ∨ j ∈ (L0 c).map Prod.fst) → c ∈ S

/-- A row that is about to receive block `i` has room for it. -/
theorem TrB.room (h : TrB A0 L0 A nzt P U) {i j : Nat} {b : Arr R} (hi : i < A0.NB) (hj : j < A0.NB)
    (hm : (j, b) ∈ U i) (hno : i ∉ (U j).map Prod.fst) (hcap : SymFit L0 A0.NB A0.MB) :
    (P j ++ U j).length < A0.MB := by
  have hiP : i ∉ (P j).map Prod.fst := by
    intro hp
    refine h.g.dj j hj i hi ?_ ?_
    · show i ∈ ((P j).map _).map Prod.fst
      rw [fst_gt]; exact hp
    · show j ∈ ((U i).map _).map Prod.fst
      rw [fst_gu]; exact List.mem_map.2 ⟨_, hm, rfl⟩
  have hpn : ((P j).map Prod.fst).Nodup := by
    have := h.g.pnd j hj
    rwa [show Ell.cols ((P j).map (gt A0.bsize.get j)) = _ from fst_gt _ _ _] at this
  have hun : ((U j).map Prod.fst).Nodup := by
    have := h.g.und j hj
    rwa [show Ell.cols ((U j).map (gu A0.bsize.get j)) = _ from fst_gu _ _ _] at this
  have hnd : ((P j ++ U j).map Prod.fst).Nodup := by
    rw [List.map_append, List.nodup_append]
    refine ⟨hpn, hun, ?_⟩
    rintro a ha c hc rfl
    exact h.x j hj a ha hc
  obtain ⟨S, hS, hSm⟩ := hcap j hj
  have := length_lt_of_subset hnd (S := S) ?_ (c := i) ?_ ?_
  · rw [List.length_map] at this; omega
  · intro c hc
    rw [List.map_append, List.mem_append] at hc
    rcases hc with hc | hc
    · obtain ⟨⟨c', w⟩, hp, rfl⟩ := List.mem_map.1 hc
      have := h.g.ps j hj _ _ (List.mem_map.2 ⟨_, hp, rfl⟩)
      refine hSm _ this.1 (Or.inr ?_)
      rw [← fst_gu A0.bsize.get]
      exact List.mem_map.2 ⟨_, this.2, rfl⟩
    · obtain ⟨⟨c', w⟩, hp, rfl⟩ := List.mem_map.1 hc
      have := h.col hj hp
      exact hSm _ this.1 (Or.inl this.2)
  · rw [List.map_append, List.mem_append, not_or]
    exact ⟨hiP, hno⟩
  · exact hSm i hi (Or.inr (h.col hi hm).2)

/-- What one step of the `while` loop achieves. -/
def TrPost (A0 : EllB R) (L0 : Nat → BRow R) (i n : Nat) (U : Nat → BRow R) (s : TrSt R) : Prop :=
  ∃ P' U', TrB A0 L0 s.A s.nzt P' U' ∧ (U' i).length = n ∧
    s.pos1 = (P' i).length + (U' i).length ∧ ∀ r, U r = [] → U' r = []

/-- The ghost step: block `(i,j)` is transposed and stored in row `j`. -/
theorem TrB.ghost (h : TrB A0 L0 A nzt P U) {i j : Nat} {b b' : Arr R} {U' : Nat → BRow R}
    {W : BRow R} (hi : i < A0.NB) (hU : (U i).Perm ((j, b) :: W))
    (hne : ∀ s, s ≠ i → (U' s).Perm (U s)) (hW : (U' i).Perm W)
    (hTB : TB (A0.bsize.get i) (A0.bsize.get j) b b') :
    Ell.Ghost (R := Nat → R) A0.NB (fun r => (L0 r).map (gu A0.bsize.get r))
      (fun r => (upd P j (P j ++ [(i, b')]) r).map (gt A0.bsize.get r))
      (fun r => (U' r).map (gu A0.bsize.get r)) := by
  have := h.g.move (c := j) (v := (gu A0.bsize.get i (j, b)).2) (W := W.map (gu A0.bsize.get i)) hi
    (U' := fun r => (U' r).map (gu A0.bsize.get r))
    (hU.map (gu A0.bsize.get i)) (fun s hs => (hne s hs).map _) (hW.map _)
  rw [map_upd (fun s l => List.map (gt A0.bsize.get s) l)]
  simp only [List.map_append, List.map_cons, List.map_nil, gt_of_TB hTB]
  exact this

/-- Case `jb = ib`. -/
theorem wp_diagStep {s : TrSt R} {i : Nat} (h : TrB A0 L0 s.A s.nzt P U) (hi : i < A0.NB)
    {U' : BRow R} {b : Arr R} (hU : U i = U' ++ [(i, b)])
    (hpos : s.pos1 = (P i).length + (U i).length) :
    (diagStep i s).wp E (TrPost A0 L0 i U'.length U) := by
  have hs := h.same
  have hiA : i < s.A.NB := by rw [hs.NB]; exact hi
  have hp1 : s.pos1 - 1 = (P i).length + U'.length := by rw [hpos, hU]; simp
  have hlast : ((fun r => P r ++ U r) i)[(P i).length + U'.length]? = some (i, b) := by
    show (P i ++ U i)[(P i).length + U'.length]? = _
    rw [hU, List.getElem?_append_right (by simp)]
    simp
  have hsz : A0.bsize.get i * A0.bsize.get i ≤ b.size :=
    h.sz i hi (i, b) (Or.inr (by rw [hU]; simp))
  unfold diagStep
  simp only [ROWMAJOR]
  rw [hp1, h.part.block_eq hiA hlast, Res.bind_ok, hs.bsize,
    Arr.read_ok (by rw [← hs.bsize, show s.A.bsize.size = s.A.NB from h.part.bs_size]; exact hiA),
    Res.bind_ok, Res.wp_bind]
  refine Res.wp_mono (wp_flipBlock hsz) ?_
  rintro b' ⟨hb1, hb2⟩
  obtain ⟨A1, e1, s1, n1, p1⟩ := h.part.putBlock hiA hlast b'
  rw [e1, Res.bind_ok, h.read_nzt hi, Res.bind_ok]
  have hset1 : ((fun r => P r ++ U r) i).set ((P i).length + U'.length) (i, b') =
      P i ++ (U' ++ [(i, b')]) := by
    show (P i ++ U i).set _ _ = _
    rw [hU, List.set_append_right _ _ (by omega)]
    simp
  rw [hset1] at p1
  obtain ⟨y, U'', hy, hset, hperm⟩ := Ell.swap_perm (P i) U' [] (i, b')
  rw [List.append_nil] at hperm
  obtain ⟨A2, e2, s2, n2, p2⟩ := p1.swap (r := i) (p := (P i).length + U'.length) (q := (P i).length)
    (x := (i, b')) (y := y) (by rw [s1.NB]; exact hiA)
    (by rw [upd_same, List.getElem?_append_right (by omega)]; simp) (by rw [upd_same]; exact hy)
  rw [e2, Res.bind_ok, Arr.write_ok _ (by rw [h.nzs]; exact hi), Res.bind_ok, Res.pure_eq, Res.wp_ok]
  rw [upd_same, hset, Ell.upd_upd] at p2
  have hUp : (U i).Perm ((i, b) :: U') := by rw [hU]; exact (List.perm_append_singleton _ _)
  have hg := h.ghost (U' := upd U i U'') hi hUp (fun s hs => by rw [upd_ne _ _ hs])
    (by rw [upd_same]; exact hperm) hb2
  have hlen : (upd P i (P i ++ [(i, b')]) i ++ upd U i U'' i).length = (P i ++ U i).length := by
    rw [upd_same, upd_same, hU]
    simp only [List.length_append, List.length_cons, List.length_nil, hperm.length_eq]
    omega
  refine ⟨upd P i (P i ++ [(i, b')]), upd U i U'', ⟨hs.trans (s1.trans s2), hg, ?_, ?_, p2.congr ?_,
    by rw [n2, n1]; exact h.ns, ?_, h.nzs, ?_⟩, ?_, ?_, ?_⟩
  · intro r hr c hc
    by_cases he : r = i
    · subst he
      rw [upd_same] at hc ⊢
      have hnd : (((r, b) :: U').map Prod.fst).Nodup := by
        have := h.g.und r hr
        rw [show Ell.cols ((U r).map (gu A0.bsize.get r)) = _ from fst_gu _ _ _] at this
        exact ((hUp.map Prod.fst).nodup_iff).1 this
      simp only [List.map_append, List.map_cons, List.map_nil, List.mem_append,
        List.mem_singleton] at hc
      intro hcU
      have hcU' : c ∈ U'.map Prod.fst := (hperm.map Prod.fst).subset hcU
      rcases hc with hc | hc
      · exact h.x r hr c hc (by rw [hU, List.map_append, List.mem_append]; exact Or.inl hcU')
      · subst hc
        exact (List.nodup_cons.1 hnd).1 hcU'
    · rw [upd_ne _ _ he] at hc ⊢
      exact h.x r hr c hc
  · intro r hr p hp
    by_cases he : r = i
    · subst he
      rw [upd_same, upd_same, List.mem_append, List.mem_singleton] at hp
      rcases hp with (hp | rfl) | hp
      · exact h.sz r hr p (Or.inl hp)
      · simp only; rw [hb1]; exact hsz
      · exact h.sz r hr p (Or.inr (by rw [hU]; exact List.mem_append_left _ (hperm.subset hp)))
    · rw [upd_ne _ _ he, upd_ne _ _ he] at hp
      exact h.sz r hr p hp
  · intro r _
    by_cases he : r = i
    · subst he; simp only [upd_same]; simp
    · simp only [upd_ne _ _ he]
  · intro r hr
    rw [n2, n1, h.nz r hr]
    by_cases he : r = i
    · subst he; exact hlen.symm
    · rw [upd_ne _ _ he, upd_ne _ _ he]
  · intro r hr
    by_cases he : r = i
    · subst he; simp only [upd_same]; simp
    · simp only [upd_ne _ _ he]; exact h.nzg r hr
  · rw [upd_same]; exact hperm.length_eq
  · rw [← List.length_append, hlen, List.length_append]; exact hpos
  · intro r hr
    by_cases he : r = i
    · subst he; rw [hr] at hU; simp at hU
    · rw [upd_ne _ _ he]; exact hr

/-- The cases without a partner. -/
theorem wp_moveBlock {s : TrSt R} {i j n2 : Nat} (h : TrB A0 L0 s.A s.nzt P U) (hi : i < A0.NB)
    (hj : j < A0.NB) (hij : i ≠ j) {U' : BRow R} {b : Arr R} (hU : U i = U' ++ [(j, b)])
    (hno : i ∉ (U j).map Prod.fst) (hpos : s.pos1 = (P i).length + (U i).length)
    (hroom : (P j ++ U j).length < A0.MB) (hn2 : A0.bsize.get i * A0.bsize.get j ≤ n2)
    (junk : Nat → R) : (moveBlock n2 junk i j s).wp E (TrPost A0 L0 i U'.length U) := by
  have hs := h.same
  have hiA : i < s.A.NB := by rw [hs.NB]; exact hi
  have hjA : j < s.A.NB := by rw [hs.NB]; exact hj
  have hbsz : s.A.bsize.size = s.A.NB := h.part.bs_size
  have hp1 : s.pos1 - 1 = (P i ++ U').length := by rw [hpos, hU]; simp
  have hLi : (fun r => P r ++ U r) i = (P i ++ U') ++ [(j, b)] := by
    show P i ++ U i = _
    rw [hU, List.append_assoc]
  have hlast : ((fun r => P r ++ U r) i)[(P i ++ U').length]? = some (j, b) := by
    rw [hLi]; simp
  have hsz : A0.bsize.get i * A0.bsize.get j ≤ b.size :=
    h.sz i hi (j, b) (Or.inr (by rw [hU]; simp))
  have hcap : ((fun r => P r ++ U r) j).length < s.A.MB := by rw [hs.MB]; exact hroom
  have hmv := h.part.move hiA hjA hij hLi hcap i
    ⟨s.A.nnzb.size, upd s.A.nnzb.get j ((P j ++ U j).length + 1)⟩
  unfold moveBlock
  simp only [ROWMAJOR]
  rw [h.read_nnzb hj, Res.bind_ok, hp1,
    Arr.read_ok (h.part.addr hiA (h.part.lt_of_slot hiA hlast)), Res.bind_ok,
    Arr.write_ok _ (h.part.addr hjA hcap), Res.bind_ok]
  unfold setIndex
  simp only
  rw [Arr.write_ok _ (h.part.addr' hjA hcap)]
  simp only [Res.bind_ok, Res.pure_eq]
  unfold setNnzb
  simp only
  rw [Arr.write_ok _ (by rw [h.ns]; exact hj)]
  simp only [Res.bind_ok, Res.pure_eq]
  -- the matrix with the block in both rows
  generalize hA1 : ({ s.A with
      ptr := ⟨s.A.ptr.size, upd s.A.ptr.get (j * s.A.MB + (P j ++ U j).length)
        (s.A.ptr.get (i * s.A.MB + (P i ++ U').length))⟩
      indexb := ⟨s.A.indexb.size, upd s.A.indexb.get (j * s.A.MB + (P j ++ U j).length) i⟩
      nnzb := ⟨s.A.nnzb.size, upd s.A.nnzb.get j ((P j ++ U j).length + 1)⟩ } : EllB R) = A1 at hmv ⊢
  have s1 : Same s.A A1 := by rw [← hA1]; exact ⟨rfl, rfl, rfl, rfl, rfl⟩
  have n1 : A1.nnzb = ⟨s.A.nnzb.size, upd s.A.nnzb.get j ((P j ++ U j).length + 1)⟩ := by rw [← hA1]
  have hj1 : j < A1.NB := by rw [s1.NB]; exact hjA
  have hnew : (upd (upd (fun r => P r ++ U r) j ((fun r => P r ++ U r) j ++ [(i, b)])) i (P i ++ U') j)[
      (P j ++ U j).length]? = some (i, b) := by
    rw [upd_ne _ _ (Ne.symm hij), upd_same]; simp
  have hblk := hmv.block_eq hj1 hnew
  rw [s1.MB] at hblk
  have e1 : (s.A.bsize).read i = .ok (A0.bsize.get i) := by
    rw [Arr.read_ok (by rw [hbsz]; exact hiA), hs.bsize]
  have e2 : (s.A.bsize).read j = .ok (A0.bsize.get j) := by
    rw [Arr.read_ok (by rw [hbsz]; exact hjA), hs.bsize]
  rw [hblk, Res.bind_ok, e1, Res.bind_ok, e2, Res.bind_ok, Res.wp_bind]
  refine Res.wp_mono (wp_transBlock (bj := A0.bsize.get i) (bk := A0.bsize.get j) hsz (t := ⟨n2, junk⟩)
    hn2) ?_
  rintro t ⟨ht1, ht2⟩
  simp only at ht1
  unfold copyTo
  rw [if_pos ⟨by rw [ht1]; exact hn2, hsz⟩, Res.bind_ok]
  have hTB : TB (A0.bsize.get i) (A0.bsize.get j) b
      ⟨b.size, fun k => if k < A0.bsize.get i * A0.bsize.get j then t.get k else b.get k⟩ := by
    intro ii jj hii hjj
    have : jj * A0.bsize.get i + ii < A0.bsize.get j * A0.bsize.get i := addr_lt hjj hii
    simp only
    rw [if_pos (by rw [Nat.mul_comm (A0.bsize.get i) (A0.bsize.get j)]; exact this)]
    exact ht2 ii jj hii hjj
  generalize hb' : (⟨b.size, fun k => if k < A0.bsize.get i * A0.bsize.get j then t.get k
    else b.get k⟩ : Arr R) = b' at hTB ⊢
  have hb's : b'.size = b.size := by rw [← hb']
  obtain ⟨A2, e3, s2, n2', p2⟩ := hmv.putBlock hj1 hnew b'
  rw [s1.MB] at e3
  rw [e3, Res.bind_ok, h.read_nzt hj, Res.bind_ok]
  have hset2 : (upd (upd (fun r => P r ++ U r) j ((fun r => P r ++ U r) j ++ [(i, b)])) i (P i ++ U')
      j).set (P j ++ U j).length (i, b') = P j ++ (U j ++ [(i, b')]) := by
    rw [upd_ne _ _ (Ne.symm hij), upd_same]
    show ((P j ++ U j) ++ [(i, b)]).set _ _ = _
    rw [List.set_append_right _ _ (le_refl _), List.append_assoc]
    simp
  rw [hset2] at p2
  obtain ⟨y, W, hy, hset, hperm⟩ := Ell.swap_perm (P j) (U j) [] (i, b')
  rw [List.append_nil] at hperm
  obtain ⟨A3, e4, s3, n3, p3⟩ := p2.swap (r := j) (p := (P j ++ U j).length) (q := (P j).length)
    (x := (i, b')) (y := y) (by rw [s2.NB]; exact hj1)
    (by rw [upd_same, ← List.append_assoc]; simp) (by rw [upd_same]; exact hy)
  rw [upd_same, List.length_append, hset, Ell.upd_upd] at p3
  rw [e4, Res.bind_ok, Arr.write_ok _ (by rw [h.nzs]; exact hj), Res.bind_ok]
  have n3' : A3.nnzb = ⟨s.A.nnzb.size, upd s.A.nnzb.get j ((P j ++ U j).length + 1)⟩ := by
    rw [n3, n2', n1]
  rw [n3', Arr.read_ok (by rw [h.ns]; exact hi)]
  simp only [Res.bind_ok]
  rw [Arr.write_ok _ (by rw [h.ns]; exact hi)]
  simp only [Res.bind_ok, Res.wp_ok]
  have hUp : (U i).Perm ((j, b) :: U') := by rw [hU]; exact (List.perm_append_singleton _ _)
  have hg := h.ghost (U' := upd (upd U j W) i U') hi hUp (fun s hs => by
      rw [upd_ne _ _ hs]
      by_cases he : s = j
      · subst he; rw [upd_same]; exact hperm
      · rw [upd_ne _ _ he])
    (by rw [upd_same]) hTB
  refine ⟨upd P j (P j ++ [(i, b')]), upd (upd U j W) i U',
    ⟨?_, hg, ?_, ?_, (p3.nnzb _).congr ?_, h.ns, ?_, h.nzs, ?_⟩, ?_, ?_, ?_⟩
  · have := hs.trans (s1.trans (s2.trans s3))
    exact ⟨this.N, this.M, this.NB, this.MB, this.bsize⟩
  · intro r hr c hc hcU
    have hcU' : c ∈ (U r).map Prod.fst := by
      by_cases he : r = i
      · subst he
        rw [upd_same] at hcU
        rw [hU, List.map_append, List.mem_append]; exact Or.inl hcU
      · rw [upd_ne _ _ he] at hcU
        by_cases hj' : r = j
        · subst hj'
          rw [upd_same] at hcU
          exact (hperm.map Prod.fst).subset hcU
        · rwa [upd_ne _ _ hj'] at hcU
    by_cases he : r = j
    · subst he
      rw [upd_same] at hc
      simp only [List.map_append, List.map_cons, List.map_nil, List.mem_append,
        List.mem_singleton] at hc
      rcases hc with hc | hc
      · exact h.x r hr c hc hcU'
      · subst hc; exact hno hcU'
    · rw [upd_ne _ _ he] at hc
      exact h.x r hr c hc hcU'
  · intro r hr p hp
    rcases hp with hp | hp
    · by_cases he : r = j
      · subst he
        rw [upd_same, List.mem_append, List.mem_singleton] at hp
        rcases hp with hp | rfl
        · exact h.sz r hr p (Or.inl hp)
        · simp only; rw [hb's, Nat.mul_comm]; exact hsz
      · rw [upd_ne _ _ he] at hp
        exact h.sz r hr p (Or.inl hp)
    · refine h.sz r hr p (Or.inr ?_)
      by_cases he : r = i
      · subst he
        rw [upd_same] at hp
        rw [hU]; exact List.mem_append_left _ hp
      · rw [upd_ne _ _ he] at hp
        by_cases hj' : r = j
        · subst hj'
          rw [upd_same] at hp
          exact hperm.subset hp
        · rwa [upd_ne _ _ hj'] at hp
  · intro r _
    by_cases hj' : r = j
    · subst hj'
      simp only [upd_same]
      rw [upd_ne _ _ (Ne.symm hij), upd_same]; simp
    · rw [upd_ne _ _ hj', upd_ne _ _ hj']
      by_cases he : r = i
      · subst he; rw [upd_same, upd_same]
      · rw [upd_ne _ _ he, upd_ne _ _ hj', upd_ne _ _ he, upd_ne _ _ hj']
  · intro r hr
    simp only
    by_cases he : r = i
    · subst he
      rw [upd_same, upd_same, upd_ne _ _ hij, h.nz r hr, upd_ne _ _ hij, hU]
      simp
    · rw [upd_ne _ _ he, upd_ne _ _ he]
      by_cases hj' : r = j
      · subst hj'
        rw [upd_same, upd_same, upd_same]
        simp only [List.length_append, List.length_cons, List.length_nil, hperm.length_eq]
        omega
      · rw [upd_ne _ _ hj', upd_ne _ _ hj', upd_ne _ _ hj']; exact h.nz r hr
  · intro r hr
    by_cases he : r = j
    · subst he; simp only [upd_same]; simp
    · simp only [upd_ne _ _ he]; exact h.nzg r hr
  · rw [upd_same]
  · simp only [upd_same]; rw [upd_ne _ _ hij, List.length_append]
  · intro r hr
    by_cases he : r = i
    · subst he; rw [hr] at hU; simp at hU
    · rw [upd_ne _ _ he]
      by_cases hj' : r = j
      · subst hj'; rw [upd_same]; rw [hr] at hperm; exact List.perm_nil.1 hperm
      · rw [upd_ne _ _ hj']; exact hr

end

end EllB

end Bml
