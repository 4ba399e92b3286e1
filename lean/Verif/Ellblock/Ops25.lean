import Verif.Ellblock.Ops24

/-!
# Block-ELLPACK: submatrices
-/

set_option linter.unusedSectionVars false

namespace Bml

namespace EllB

variable {R : Type} {E : Prop}

/-! ## Finding a block by its first row -/

/-- The search stops at the first block that starts at `target` or behind it. -/
theorem countTo_spec {bs : Arr Nat} {target : Nat} (ht : target ≤ off bs.get bs.size) :
    ∀ fuel ib, ib ≤ bs.size → bs.size + 1 ≤ fuel + ib →
      (∀ k, k < ib → off bs.get k < target) →
      ∃ k, countTo bs target fuel ib (off bs.get ib) = .ok (k, off bs.get k) ∧ k ≤ bs.size ∧
        target ≤ off bs.get k ∧ ∀ k', k' < k → off bs.get k' < target := by
  intro fuel
  induction fuel with
  | zero => intro ib h1 h2; omega
  | succ n ih =>
    intro ib h1 h2 h3
    unfold countTo
    by_cases hc : off bs.get ib < target
    · have hlt : ib < bs.size := by
        by_contra hn
        have : ib = bs.size := by omega
        subst this
        omega
      rw [if_pos hc, Arr.read_ok hlt, Res.bind_ok, ← off_succ]
      refine ih (ib + 1) (by omega) (by omega) ?_
      intro k hk
      by_cases he : k = ib
      · subst he; exact hc
      · exact h3 k (by omega)
    · rw [if_neg hc]
      exact ⟨ib, rfl, h1, by omega, h3⟩

theorem countTo_ub {bs : Arr Nat} {target : Nat} (ht : off bs.get bs.size < target) :
    ∀ fuel ib, ib ≤ bs.size → countTo bs target fuel ib (off bs.get ib) = .ub := by
  intro fuel
  induction fuel with
  | zero => intro ib _; rfl
  | succ n ih =>
    intro ib h1
    unfold countTo
    have := off_mono bs.get h1
    rw [if_pos (by omega)]
    by_cases hlt : ib < bs.size
    · rw [Arr.read_ok hlt, Res.bind_ok, ← off_succ]
      exact ih (ib + 1) (by omega)
    · rw [Arr.read_ub (by omega)]
      rfl

/-- `count` reaches exactly the first row of block `k`. -/
theorem countTo_eq {bs : Arr Nat} {k : Nat} (hk : k ≤ bs.size) (hpos : ∀ i, i < k → 0 < bs.get i) :
    countTo bs (off bs.get k) (bs.size + 1) 0 0 = .ok (k, off bs.get k) := by
  obtain ⟨k', e, h1, h2, h3⟩ := countTo_spec (bs := bs) (target := off bs.get k)
    (off_mono _ hk) (bs.size + 1) 0 (by omega) (by omega) (by intro k hk; omega)
  rw [off_zero] at e
  have hlt : ∀ i, i < k → off bs.get i < off bs.get k := by
    intro i hi
    have := off_lt (bs := bs.get) (n := k) hi (hpos i hi)
    omega
  have : k' = k := by
    rcases lt_trichotomy k' k with hlt' | he | hgt
    · have := hlt k' hlt'; omega
    · exact he
    · have := h3 k hgt; omega
  rw [e, this]

theorem blockAt_eq {bs : Arr Nat} {k : Nat} (hk : k ≤ bs.size) (hpos : ∀ i, i < k → 0 < bs.get i) :
    blockAt bs (off bs.get k) = .ok k := by
  unfold blockAt
  rw [countTo_eq hk hpos, Res.bind_ok, if_pos rfl]
  rfl

/-- A row inside a block is rejected. -/
theorem blockAt_error {bs : Arr Nat} {target : Nat} (ht : target ≤ off bs.get bs.size)
    (hno : ∀ k, k ≤ bs.size → off bs.get k ≠ target) : blockAt bs target = .error := by
  obtain ⟨k', e, h1, h2, h3⟩ := countTo_spec ht (bs.size + 1) 0 (by omega) (by omega)
    (by intro k hk; omega)
  rw [off_zero] at e
  unfold blockAt
  rw [e, Res.bind_ok, if_neg (hno k' h1)]

/-- A row behind the end: the array of block sizes is read behind its end. -/
theorem blockAt_ub {bs : Arr Nat} {target : Nat} (ht : off bs.get bs.size < target) :
    blockAt bs target = .ub := by
  unfold blockAt
  have := countTo_ub ht (bs.size + 1) 0 (by omega)
  rw [off_zero] at this
  rw [this]
  rfl

/-! ## The rows of the results -/

/-- The blocks of a row in the block columns `icolb ≤ jb < icolb + nb`, moved to column 0. -/
def subRow (bs : Nat → Nat) (icolb nb ib : Nat) (l : BRow R) : BRow R :=
  (l.filter fun p => decide (icolb ≤ p.1 ∧ p.1 < icolb + nb)).map fun p =>
    (p.1 - icolb, ⟨bs ib * bs p.1, p.2.get⟩)

/-- The blocks of a row, moved to block column `icolb`. -/
def shiftRow (bs : Nat → Nat) (icolb ib : Nat) (l : BRow R) : BRow R :=
  l.map fun p => (p.1 + icolb, ⟨bs ib * bs p.1, p.2.get⟩)

theorem subRow_snoc (bs : Nat → Nat) (icolb nb ib : Nat) (l : BRow R) (p : Nat × Arr R) :
    subRow bs icolb nb ib (l ++ [p]) = if icolb ≤ p.1 ∧ p.1 < icolb + nb then
      subRow bs icolb nb ib l ++ [(p.1 - icolb, ⟨bs ib * bs p.1, p.2.get⟩)]
    else subRow bs icolb nb ib l := by
  unfold subRow
  rw [List.filter_append, List.map_append, List.filter_cons]
  by_cases h : icolb ≤ p.1 ∧ p.1 < icolb + nb
  · simp [h]
  · simp [h]

theorem shiftRow_snoc (bs : Nat → Nat) (icolb ib : Nat) (l : BRow R) (p : Nat × Arr R) :
    shiftRow bs icolb ib (l ++ [p]) =
      shiftRow bs icolb ib l ++ [(p.1 + icolb, ⟨bs ib * bs p.1, p.2.get⟩)] := by
  unfold shiftRow
  rw [List.map_append]; rfl

theorem subRow_cols (bs : Nat → Nat) (icolb nb ib : Nat) (l : BRow R) :
    (subRow bs icolb nb ib l).map Prod.fst =
      ((l.map Prod.fst).filter fun c => decide (icolb ≤ c ∧ c < icolb + nb)).map (· - icolb) := by
  unfold subRow
  rw [List.map_map, List.filter_map, List.map_map]
  rfl

theorem shiftRow_cols (bs : Nat → Nat) (icolb ib : Nat) (l : BRow R) :
    (shiftRow bs icolb ib l).map Prod.fst = (l.map Prod.fst).map (· + icolb) := by
  unfold shiftRow
  rw [List.map_map, List.map_map]
  rfl

theorem subRow_nodup {bs : Nat → Nat} {icolb nb ib : Nat} {l : BRow R}
    (h : (l.map Prod.fst).Nodup) : ((subRow bs icolb nb ib l).map Prod.fst).Nodup := by
  rw [subRow_cols]
  refine List.Nodup.map_on ?_ (h.filter _)
  intro x hx y hy hxy
  have h1 := of_decide_eq_true (List.mem_filter.1 hx).2
  have h2 := of_decide_eq_true (List.mem_filter.1 hy).2
  omega

theorem shiftRow_nodup {bs : Nat → Nat} {icolb ib : Nat} {l : BRow R}
    (h : (l.map Prod.fst).Nodup) : ((shiftRow bs icolb ib l).map Prod.fst).Nodup := by
  rw [shiftRow_cols]
  exact h.map (fun x y hxy => by simpa using hxy)

section
variable [AddCommMonoid R]

theorem val_subRow (bs : Nat → Nat) (icolb nb ib : Nat) (l : BRow R) (jb k : Nat) :
    val (subRow bs icolb nb ib l) jb k = if jb < nb then val l (jb + icolb) k else 0 := by
  induction l with
  | nil => simp [subRow]
  | cons p l ih =>
    by_cases h : icolb ≤ p.1 ∧ p.1 < icolb + nb
    · have e : subRow bs icolb nb ib (p :: l) =
          (p.1 - icolb, ⟨bs ib * bs p.1, p.2.get⟩) :: subRow bs icolb nb ib l := by
        unfold subRow
        rw [List.filter_cons, if_pos (by simp [h])]
        rfl
      rw [e, val_cons, val_cons, ih]
      simp only
      by_cases hj : jb < nb
      · rw [if_pos hj, if_pos hj]
        by_cases hp : p.1 = jb + icolb
        · rw [if_pos (by omega), if_pos hp]
        · rw [if_neg (by omega), if_neg hp]
      · rw [if_neg hj, if_neg hj, if_neg (by omega), add_zero]
    · have e : subRow bs icolb nb ib (p :: l) = subRow bs icolb nb ib l := by
        unfold subRow
        rw [List.filter_cons, if_neg (by simpa using h)]
      rw [e, ih, val_cons]
      by_cases hj : jb < nb
      · rw [if_pos hj, if_pos hj, if_neg (by omega), zero_add]
      · rw [if_neg hj, if_neg hj]

theorem val_shiftRow (bs : Nat → Nat) (icolb ib : Nat) (l : BRow R) (jb k : Nat) :
    val (shiftRow bs icolb ib l) jb k = if icolb ≤ jb then val l (jb - icolb) k else 0 := by
  induction l with
  | nil => simp [shiftRow]
  | cons p l ih =>
    have e : shiftRow bs icolb ib (p :: l) =
        (p.1 + icolb, ⟨bs ib * bs p.1, p.2.get⟩) :: shiftRow bs icolb ib l := rfl
    rw [e, val_cons, val_cons, ih]
    simp only
    by_cases hj : icolb ≤ jb
    · rw [if_pos hj, if_pos hj]
      by_cases hp : p.1 = jb - icolb
      · rw [if_pos (by omega), if_pos hp]
      · rw [if_neg (by omega), if_neg hp]
    · rw [if_neg hj, if_neg hj, if_neg (by omega), add_zero]

end

/-! ## Extraction -/

section
variable [AddCommMonoid R]

/-- One block. -/
theorem extractPut_eq {A B : EllB R} {L LB : Nat → BRow R} (h : A.Is L) (hB : B.Is LB)
    {irowb icolb nb ib jp jb : Nat} {b : Arr R} (hib : ib < A.NB) (hjb : jb < A.NB)
    (hs : (L ib)[jp]? = some (jb, b)) (hsz : A.bsize.get ib * A.bsize.get jb ≤ b.size)
    (hr : ib - irowb < B.NB)
    (hroom : icolb ≤ jb ∧ jb < icolb + nb → (LB (ib - irowb)).length < B.MB) :
    extractPut A irowb icolb nb ib (ib * A.MB + jp) jb B =
      .ok (if icolb ≤ jb ∧ jb < icolb + nb then
        B.app (ib - irowb) (jb - icolb) ⟨A.bsize.get ib * A.bsize.get jb, b.get⟩ else B) := by
  unfold extractPut
  by_cases hc : icolb ≤ jb ∧ jb < icolb + nb
  · rw [if_pos hc, if_pos hc, h.bsize_eq hib, Res.bind_ok, h.bsize_eq hjb, Res.bind_ok,
      hB.nnzb_eq hr, Res.bind_ok, h.block_eq hib hs, Res.bind_ok]
    unfold copyNew
    rw [if_pos hsz, Res.bind_ok]
    exact hB.append_wp hr (hroom hc) _ _
  · rw [if_neg hc, if_neg hc]
    rfl

theorem Same.app (B : EllB R) (ib jb : Nat) (b : Arr R) : Same B (B.app ib jb b) :=
  ⟨rfl, rfl, rfl, rfl, rfl⟩

/-- The loop of `bml_extract_submatrix_ellblock`. -/
theorem wp_extractLoop {A B0 : EllB R} {L : Nat → BRow R} (h : A.Is L)
    (hg : ∀ ib, ib < A.NB → GoodRow A.NB A.bsize.get ib (L ib)) {irowb icolb nb : Nat}
    (hrow : irowb + nb ≤ A.NB) (h0 : B0.Is (fun _ => [])) (hc0 : B0.Clean) (hnb : nb ≤ B0.NB)
    (hroom : ∀ r, r < nb → (subRow A.bsize.get icolb nb (irowb + r) (L (irowb + r))).length ≤ B0.MB) :
    (loopFrom irowb (irowb + nb) B0 fun ib B =>
      A.eachIdx ib B (extractPut A irowb icolb nb ib)).wp E (fun B => Same B0 B ∧ B.Clean ∧
      B.Is (fun r => if r < nb then subRow A.bsize.get icolb nb (irowb + r) (L (irowb + r))
        else [])) := by
  refine wp_loopFrom (fun ib (B : EllB R) => Same B0 B ∧ B.Clean ∧
      B.Is (fun r => if irowb + r < ib then subRow A.bsize.get icolb nb (irowb + r) (L (irowb + r))
        else [])) (by omega) ⟨Same.refl _, hc0, ?_⟩ ?_ ?_
  · have : (fun r => if irowb + r < irowb then
        subRow A.bsize.get icolb nb (irowb + r) (L (irowb + r)) else []) = fun _ => ([] : BRow R) := by
      funext r
      rw [if_neg (by omega)]
    rw [this]
    exact h0
  · rintro ib hlo hhi B ⟨hs, hc, hI⟩
    have hib : ib < A.NB := by omega
    set F : Nat → BRow R := fun r => if irowb + r < ib then
      subRow A.bsize.get icolb nb (irowb + r) (L (irowb + r)) else [] with hF
    have hFz : F (ib - irowb) = [] := by rw [hF]; beta_reduce; rw [if_neg (by omega)]
    have er : irowb + (ib - irowb) = ib := by omega
    -- positions are needed for the address, so the row is walked by position
    unfold eachIdx
    rw [h.nnzb_eq hib, Res.bind_ok]
    refine wp_loop' (fun n (B : EllB R) => Same B0 B ∧ B.Clean ∧
      B.Is (upd F (ib - irowb) (subRow A.bsize.get icolb nb ib ((L ib).take n)))) ?_ ?_ ?_
    · refine ⟨hs, hc, ?_⟩
      have : upd F (ib - irowb) (subRow A.bsize.get icolb nb ib ((L ib).take 0)) = F := by
        funext r
        by_cases hr : r = ib - irowb
        · subst hr; rw [upd_same, hFz]; rfl
        · rw [upd_ne _ _ hr]
      rw [this]
      exact hI
    · rintro jp hjp B' ⟨hs', hc', hI'⟩
      obtain ⟨⟨jb, b⟩, hx⟩ : ∃ x, (L ib)[jp]? = some x := ⟨_, List.getElem?_eq_getElem hjp⟩
      have hmem := List.mem_of_getElem? hx
      simp only [ROWMAJOR]
      rw [h.index_eq hib hx, Res.bind_ok]
      have ht : (L ib).take (jp + 1) = (L ib).take jp ++ [(jb, b)] := by
        rw [List.take_add_one, hx]; rfl
      have hsn := subRow_snoc A.bsize.get icolb nb ib ((L ib).take jp) (jb, b)
      rw [← ht] at hsn
      simp only at hsn
      have hle : (subRow A.bsize.get icolb nb ib ((L ib).take (jp + 1))).length ≤ B0.MB := by
        refine le_trans ?_ (er ▸ hroom (ib - irowb) (by omega))
        unfold subRow
        rw [List.length_map, List.length_map]
        exact ((List.take_sublist _ _).filter _).length_le
      have hBN : ib - irowb < B'.NB := by rw [hs'.NB]; omega
      have hroom' : icolb ≤ jb ∧ jb < icolb + nb →
          (upd F (ib - irowb) (subRow A.bsize.get icolb nb ib ((L ib).take jp))
            (ib - irowb)).length < B'.MB := by
        intro hcc
        rw [upd_same, hs'.MB]
        rw [hsn, if_pos hcc, List.length_append, List.length_singleton] at hle
        omega
      rw [extractPut_eq h hI' hib ((hg ib hib).lt _ hmem) hx ((hg ib hib).size _ hmem) hBN hroom',
        Res.wp_ok]
      by_cases hcc : icolb ≤ jb ∧ jb < icolb + nb
      · rw [if_pos hcc, hsn, if_pos hcc]
        refine ⟨hs'.trans (Same.app _ _ _ _), hc'.app hI' hBN (hroom' hcc) _ _, ?_⟩
        have := hI'.app hBN (hroom' hcc) (jb - icolb) ⟨A.bsize.get ib * A.bsize.get jb, b.get⟩
        rw [upd_same] at this
        have eu : ∀ l l' : BRow R, upd (upd F (ib - irowb) l) (ib - irowb) l' =
            upd F (ib - irowb) l' := by
          intro l l'
          funext k
          by_cases hk : k = ib - irowb
          · subst hk; rw [upd_same, upd_same]
          · rw [upd_ne _ _ hk, upd_ne _ _ hk, upd_ne _ _ hk]
        rw [eu] at this
        exact this
      · rw [if_neg hcc, hsn, if_neg hcc]
        exact ⟨hs', hc', hI'⟩
    · rintro B' ⟨hs', hc', hI'⟩
      refine ⟨hs', hc', ?_⟩
      rw [List.take_length] at hI'
      have : upd F (ib - irowb) (subRow A.bsize.get icolb nb ib (L ib)) = fun r =>
          if irowb + r < ib + 1 then subRow A.bsize.get icolb nb (irowb + r) (L (irowb + r))
          else [] := by
        funext r
        by_cases hr : r = ib - irowb
        · subst hr; rw [upd_same, if_pos (by omega), er]
        · rw [upd_ne _ _ hr, hF]
          beta_reduce
          by_cases hr2 : irowb + r < ib
          · rw [if_pos hr2, if_pos (by omega)]
          · rw [if_neg hr2, if_neg (by omega)]
      rw [this] at hI'
      exact hI'
  · rintro B ⟨hs, hc, hI⟩
    refine ⟨hs, hc, ?_⟩
    have : (fun r => if irowb + r < irowb + nb then
        subRow A.bsize.get icolb nb (irowb + r) (L (irowb + r)) else []) = fun r =>
        if r < nb then subRow A.bsize.get icolb nb (irowb + r) (L (irowb + r)) else [] := by
      funext r
      by_cases hr : r < nb
      · rw [if_pos (by omega), if_pos hr]
      · rw [if_neg (by omega), if_neg hr]
    rw [this] at hI
    exact hI

/-- Every block row of the window has at most `n` blocks in the window. -/
def WindowFits (A : EllB R) (irowb icolb nb n : Nat) : Prop :=
  ∀ r, r < nb → ∃ S : Finset Nat, S.card ≤ n ∧
    ∀ c, c < nb → A.Has (irowb + r) (icolb + c) → c ∈ S

theorem Rows.windowFits {A : EllB R} {N : Nat} {L : Nat → BRow R} {a : Spec.Mat R}
    (h : A.Rows N L a) {irowb icolb nb n : Nat} (hrow : irowb + nb ≤ A.NB)
    (hf : A.WindowFits irowb icolb nb n) {r : Nat} (hr : r < nb) :
    (subRow A.bsize.get icolb nb (irowb + r) (L (irowb + r))).length ≤ n := by
  obtain ⟨S, hS, hm⟩ := hf r hr
  have hn := subRow_nodup (bs := A.bsize.get) (icolb := icolb) (nb := nb) (ib := irowb + r)
    (h.good (irowb + r) (by omega)).nodup
  have hsub : ((subRow A.bsize.get icolb nb (irowb + r) (L (irowb + r))).map Prod.fst).toFinset ⊆ S := by
    intro c hc
    rw [List.mem_toFinset, subRow_cols] at hc
    obtain ⟨c', hc', rfl⟩ := List.mem_map.1 hc
    obtain ⟨h1, h2⟩ := List.mem_filter.1 hc'
    have h2 := of_decide_eq_true h2
    refine hm _ (by omega) ((h.has_iff (by omega)).2 ?_)
    rwa [show icolb + (c' - icolb) = c' by omega]
  have := Finset.card_le_card hsub
  rw [List.toFinset_card_of_nodup hn, List.length_map] at this
  omega

/-- Moving by whole blocks: the blocks of the window have the sizes of the first `nb` blocks. -/
theorem off_shift {bs bs' : Nat → Nat} {s nb : Nat} (h : ∀ k, k < nb → bs (s + k) = bs' k) :
    ∀ k, k ≤ nb → off bs (s + k) = off bs s + off bs' k := by
  intro k
  induction k with
  | zero => intro _; rw [off_zero]; rfl
  | succ k ih =>
    intro hk
    rw [show s + (k + 1) = (s + k) + 1 by omega, off_succ, ih (by omega), off_succ, h k (by omega)]
    omega

/-- `bml_extract_submatrix`. -/
theorem Rows.wp_extract {A : EllB R} {N : Nat} {L : Nat → BRow R} {a : Spec.Mat R}
    (h : A.Rows N L a) (hpos : ∀ ib, ib < A.NB → 0 < A.bsize.get ib) {irowb icolb nb : Nat}
    (hrow : irowb + nb ≤ A.NB) (hcol : icolb + nb ≤ A.NB) {g : Glob} {NG : Nat} {b : Arr Nat}
    (hg : g.Set NG b) (hnb : nb ≤ g.nb) (hsz : ∀ k, k < nb → A.bsize.get k = b.get k ∧
      A.bsize.get (irowb + k) = b.get k ∧ A.bsize.get (icolb + k) = b.get k)
    (hfit : A.WindowFits irowb icolb nb g.mb) {BM : Nat} (hBM : BM ≤ off A.bsize.get nb) :
    (extract g A (off A.bsize.get irowb) (off A.bsize.get icolb) (off A.bsize.get nb) BM).wp E
      (fun r => r.1 = g ∧ r.2.NB = g.nb ∧ r.2.MB = g.mb ∧ r.2.M = BM ∧ r.2.bsize.get = b.get ∧
        r.2.Clean ∧ (∃ LB, r.2.Rows NG LB (fun i j =>
          if i < off A.bsize.get nb ∧ j < off A.bsize.get nb then
            a (off A.bsize.get irowb + i) (off A.bsize.get icolb + j) else 0)) ∧
        ∀ ib jb, ib < nb → jb < nb → (r.2.Has ib jb ↔ A.Has (irowb + ib) (icolb + jb))) := by
  have hbs := h.is.bs_size
  have eo : off A.bsize.get nb = off b.get nb := by
    have := off_shift (bs := A.bsize.get) (bs' := b.get) (s := 0) (nb := nb)
      (fun k hk => by rw [Nat.zero_add]; exact (hsz k hk).1) nb (le_refl _)
    rw [Nat.zero_add, off_zero, Nat.zero_add] at this
    exact this
  have hBN : BM ≤ NG := by
    rw [eo] at hBM
    have := off_mono b.get hnb
    rw [hg.sum] at this
    omega
  unfold extract zeroMatrix
  rw [if_neg (by omega)]
  have e1 : getBlockSizes g (off A.bsize.get nb) BM = .ok (g, b) := by
    unfold getBlockSizes
    rw [hg.bsize]
  rw [e1, Res.bind_ok]
  simp only
  rw [hg.blockMatrix hBN, Res.bind_ok]
  simp only
  rw [blockAt_eq (by omega) (fun i hi => hpos i (by omega)), Res.bind_ok,
    blockAt_eq (by omega) (fun i hi => hpos i (by omega)), Res.bind_ok,
    countTo_eq (by omega) (fun i hi => hpos i (by omega)), Res.bind_ok]
  simp only
  rw [Res.wp_bind]
  refine Res.wp_mono (wp_extractLoop h.is h.good hrow (empty_is rfl) empty_clean hnb
    (fun r hr => h.windowFits hrow hfit hr)) ?_
  rintro B ⟨hs, hc, hI⟩
  rw [Res.wp_pure]
  simp only
  have hNB : B.NB = g.nb := hs.NB
  have hMB : B.MB = g.mb := hs.MB
  have hB : B.bsize.get = b.get := by rw [hs.bsize]; rfl
  have hR : B.Rows NG (fun r => if r < nb then
      subRow A.bsize.get icolb nb (irowb + r) (L (irowb + r)) else []) (fun i j =>
          if i < off A.bsize.get nb ∧ j < off A.bsize.get nb then
            a (off A.bsize.get irowb + i) (off A.bsize.get icolb + j) else 0) := by
    refine ⟨hI, ?_, hs.N, by rw [hB, hNB]; exact hg.sum, ?_⟩
    · intro ib hib
      beta_reduce
      by_cases hlt : ib < nb
      · rw [if_pos hlt]
        have hgd := h.good (irowb + ib) (by omega)
        refine ⟨subRow_nodup hgd.nodup, ?_, ?_⟩
        · intro p hp
          unfold subRow at hp
          obtain ⟨q, hq, rfl⟩ := List.mem_map.1 hp
          have := of_decide_eq_true (List.mem_filter.1 hq).2
          simp only
          omega
        · intro p hp
          unfold subRow at hp
          obtain ⟨q, hq, rfl⟩ := List.mem_map.1 hp
          have hw := of_decide_eq_true (List.mem_filter.1 hq).2
          simp only
          rw [hB, ← (hsz ib hlt).2.1, ← (hsz (q.1 - icolb) (by omega)).2.2,
            show icolb + (q.1 - icolb) = q.1 by omega]
      · rw [if_neg hlt]
        exact ⟨by simp, by simp, by simp⟩
    · intro ib jb ii jj hib hjb hii hjj
      rw [hB] at hii hjj ⊢
      beta_reduce
      by_cases hlt : ib < nb
      · rw [if_pos hlt, val_subRow]
        have h1 : off b.get ib + ii < off b.get nb := off_lt hlt hii
        by_cases hlt2 : jb < nb
        · have h2 : off b.get jb + jj < off b.get nb := off_lt hlt2 hjj
          rw [if_pos hlt2, if_pos ⟨by omega, by omega⟩]
          have e2 := off_shift (fun k hk => (hsz k hk).2.1) ib (by omega)
          have e3 := off_shift (fun k hk => (hsz k hk).2.2) jb (by omega)
          have := h.den (irowb + ib) (icolb + jb) ii jj (by omega) (by omega)
            (by rw [(hsz ib hlt).2.1]; exact hii) (by rw [(hsz jb hlt2).2.2]; exact hjj)
          rw [(hsz jb hlt2).2.2, e2, e3, Nat.add_assoc, Nat.add_assoc] at this
          rw [Nat.add_comm jb icolb]
          exact this
        · have := off_mono b.get (show nb ≤ jb by omega)
          rw [if_neg hlt2, if_neg (by omega)]
      · have := off_mono b.get (show nb ≤ ib by omega)
        rw [if_neg hlt, val_nil, if_neg (by omega)]
  refine ⟨trivial, hNB, hMB, hs.M, hB, hc, ⟨_, hR⟩, ?_⟩
  intro ib jb hib hjb
  rw [hR.has_iff (by omega), h.has_iff (by omega)]
  beta_reduce
  rw [if_pos hib, subRow_cols, List.mem_map]
  constructor
  · rintro ⟨c, hc1, hc2⟩
    obtain ⟨h1, h2⟩ := List.mem_filter.1 hc1
    have h2 := of_decide_eq_true h2
    rwa [show icolb + jb = c by omega]
  · intro hm
    exact ⟨icolb + jb, List.mem_filter.2 ⟨hm, decide_eq_true (by omega)⟩, by omega⟩

/-! ## Assignment -/

/-- The loop of `bml_assign_submatrix_ellblock`. -/
theorem wp_assignLoop {A B : EllB R} {L LB : Nat → BRow R} (h : A.Is L) (hB : B.Is LB)
    (hg : ∀ ib, ib < B.NB → GoodRow B.NB B.bsize.get ib (LB ib)) {irowb icolb : Nat}
    (hrow : irowb + B.NB ≤ A.NB) (hsz : ∀ k, k < B.NB → A.bsize.get k = B.bsize.get k)
    (hroom : ∀ r, r < B.NB → (L (irowb + r)).length + (LB r).length ≤ A.MB) :
    (loop B.NB A fun ib A => B.eachIdx ib A (assignPut B irowb icolb ib)).wp E (fun A' => Same A A' ∧
      (A.Clean → A'.Clean) ∧ A'.Is (fun r => if irowb ≤ r ∧ r < irowb + B.NB then
        L r ++ shiftRow A.bsize.get icolb (r - irowb) (LB (r - irowb)) else L r)) := by
  refine wp_loop' (fun ib (A' : EllB R) => Same A A' ∧ (A.Clean → A'.Clean) ∧
      A'.Is (fun r => if irowb ≤ r ∧ r < irowb + ib then
        L r ++ shiftRow A.bsize.get icolb (r - irowb) (LB (r - irowb)) else L r))
      ⟨Same.refl _, id, ?_⟩ ?_ ?_
  · have : (fun r => if irowb ≤ r ∧ r < irowb + 0 then
        L r ++ shiftRow A.bsize.get icolb (r - irowb) (LB (r - irowb)) else L r) = L := by
      funext r
      rw [if_neg (by omega)]
    rw [this]
    exact h
  · rintro ib hib A1 ⟨hs, hc, hI⟩
    set F : Nat → BRow R := fun r => if irowb ≤ r ∧ r < irowb + ib then
        L r ++ shiftRow A.bsize.get icolb (r - irowb) (LB (r - irowb)) else L r with hF
    have hFz : F (ib + irowb) = L (ib + irowb) := by rw [hF]; beta_reduce; rw [if_neg (by omega)]
    unfold eachIdx
    rw [hB.nnzb_eq hib, Res.bind_ok]
    refine wp_loop' (fun n (A' : EllB R) => Same A A' ∧ (A.Clean → A'.Clean) ∧
      A'.Is (upd F (ib + irowb) (L (ib + irowb) ++
        shiftRow A.bsize.get icolb ib ((LB ib).take n)))) ⟨hs, hc, ?_⟩ ?_ ?_
    · have : upd F (ib + irowb) (L (ib + irowb) ++
          shiftRow A.bsize.get icolb ib ((LB ib).take 0)) = F := by
        funext r
        by_cases hr : r = ib + irowb
        · subst hr; rw [upd_same, hFz]; simp [shiftRow]
        · rw [upd_ne _ _ hr]
      rw [this]
      exact hI
    · rintro jp hjp A' ⟨hs', hc', hI'⟩
      obtain ⟨⟨jb, b⟩, hx⟩ : ∃ x, (LB ib)[jp]? = some x := ⟨_, List.getElem?_eq_getElem hjp⟩
      have hmem := List.mem_of_getElem? hx
      have hjb : jb < B.NB := (hg ib hib).lt _ hmem
      have hbsz : B.bsize.get ib * B.bsize.get jb ≤ b.size := (hg ib hib).size _ hmem
      simp only [ROWMAJOR]
      rw [hB.index_eq hib hx, Res.bind_ok]
      have ht : (LB ib).take (jp + 1) = (LB ib).take jp ++ [(jb, b)] := by
        rw [List.take_add_one, hx]; rfl
      have hAN : A'.NB = A.NB := hs'.NB
      have hi' : ib + irowb < A'.NB := by omega
      have hcap : (upd F (ib + irowb) (L (ib + irowb) ++
          shiftRow A.bsize.get icolb ib ((LB ib).take jp)) (ib + irowb)).length < A'.MB := by
        rw [upd_same, hs'.MB, List.length_append]
        have h1 := hroom ib hib
        rw [Nat.add_comm irowb ib] at h1
        unfold shiftRow
        rw [List.length_map, List.length_take]
        omega
      unfold assignPut
      rw [hI'.bsize_eq (by omega), Res.bind_ok, hI'.bsize_eq (by omega), Res.bind_ok,
        hI'.nnzb_eq hi', Res.bind_ok, hB.block_eq hib hx, Res.bind_ok]
      unfold copyNew
      rw [if_pos (by rw [hs'.bsize, hsz ib hib, hsz jb hjb]; exact hbsz), Res.bind_ok]
      have e := hI'.append_wp hi' hcap (jb + icolb)
        ⟨A'.bsize.get ib * A'.bsize.get jb, b.get⟩
      simp only [ROWMAJOR]
      rw [e, Res.wp_ok]
      refine ⟨hs'.trans (Same.app _ _ _ _), fun hcl => (hc' hcl).app hI' hi' hcap _ _, ?_⟩
      have := hI'.app hi' hcap (jb + icolb) ⟨A'.bsize.get ib * A'.bsize.get jb, b.get⟩
      rw [upd_same] at this
      rw [ht, shiftRow_snoc, ← List.append_assoc]
      have eu : ∀ l l' : BRow R, upd (upd F (ib + irowb) l) (ib + irowb) l' =
          upd F (ib + irowb) l' := by
        intro l l'
        funext k
        by_cases hk : k = ib + irowb
        · subst hk; rw [upd_same, upd_same]
        · rw [upd_ne _ _ hk, upd_ne _ _ hk, upd_ne _ _ hk]
      rw [eu] at this
      rw [hs'.bsize] at this
      rw [hs'.bsize]
      exact this
    · rintro A' ⟨hs', hc', hI'⟩
      refine ⟨hs', hc', ?_⟩
      rw [List.take_length] at hI'
      have : upd F (ib + irowb) (L (ib + irowb) ++ shiftRow A.bsize.get icolb ib (LB ib)) = fun r =>
          if irowb ≤ r ∧ r < irowb + (ib + 1) then
            L r ++ shiftRow A.bsize.get icolb (r - irowb) (LB (r - irowb)) else L r := by
        funext r
        by_cases hr : r = ib + irowb
        · subst hr; rw [upd_same, if_pos (by omega), Nat.add_sub_cancel]
        · rw [upd_ne _ _ hr, hF]
          beta_reduce
          by_cases hr2 : irowb ≤ r ∧ r < irowb + ib
          · rw [if_pos hr2, if_pos (by omega)]
          · rw [if_neg hr2, if_neg (by omega)]
      rw [this] at hI'
      exact hI'
  · exact fun _ h => h

/-- `bml_assign_submatrix`, where no block of `B` meets a stored block of `A`. -/
theorem Rows.wp_assign {A B : EllB R} {N NB : Nat} {L LB : Nat → BRow R} {a b : Spec.Mat R}
    (h : A.Rows N L a) (hB : B.Rows NB LB b) (hpos : ∀ ib, ib < A.NB → 0 < A.bsize.get ib)
    {irowb icolb : Nat} (hrow : irowb + B.NB ≤ A.NB) (hcol : icolb + B.NB ≤ A.NB)
    (hsz : ∀ k, k < B.NB → A.bsize.get k = B.bsize.get k ∧
      A.bsize.get (irowb + k) = B.bsize.get k ∧ A.bsize.get (icolb + k) = B.bsize.get k)
    (hno : ∀ ib jb, ib < B.NB → jb < B.NB → B.Has ib jb → ¬ A.Has (irowb + ib) (icolb + jb))
    (hroom : ∀ ib, ib < B.NB → A.nnzb.get (irowb + ib) + B.nnzb.get ib ≤ A.MB) :
    (assign A B (off A.bsize.get irowb) (off A.bsize.get icolb)).wp E (fun A' => Same A A' ∧
      (A.Clean → A'.Clean) ∧ (∃ L', A'.Rows N L' (fun i j => a i j +
        if off A.bsize.get irowb ≤ i ∧ i < off A.bsize.get irowb + NB ∧
          off A.bsize.get icolb ≤ j ∧ j < off A.bsize.get icolb + NB then
          b (i - off A.bsize.get irowb) (j - off A.bsize.get icolb) else 0)) ∧
      ∀ ib jb, ib < A.NB → jb < A.NB → (A'.Has ib jb ↔ A.Has ib jb ∨
        (irowb ≤ ib ∧ ib < irowb + B.NB ∧ icolb ≤ jb ∧ jb < icolb + B.NB ∧
          B.Has (ib - irowb) (jb - icolb)))) := by
  have hbs := h.is.bs_size
  unfold assign
  rw [blockAt_eq (by omega) (fun i hi => hpos i (by omega)), Res.bind_ok,
    blockAt_eq (by omega) (fun i hi => hpos i (by omega)), Res.bind_ok]
  refine Res.wp_mono (wp_assignLoop h.is hB.is hB.good hrow (fun k hk => (hsz k hk).1) ?_) ?_
  · intro r hr
    rw [← h.is.nz _ (by omega), ← hB.is.nz _ hr]
    exact hroom r hr
  rintro A' ⟨hs, hc, hI⟩
  have er := off_shift (s := irowb) (fun k hk => (hsz k hk).2.1)
  have ec := off_shift (s := icolb) (fun k hk => (hsz k hk).2.2)
  have hR : A'.Rows N (fun r => if irowb ≤ r ∧ r < irowb + B.NB then
        L r ++ shiftRow A.bsize.get icolb (r - irowb) (LB (r - irowb)) else L r)
      (fun i j => a i j +
        if off A.bsize.get irowb ≤ i ∧ i < off A.bsize.get irowb + NB ∧
          off A.bsize.get icolb ≤ j ∧ j < off A.bsize.get icolb + NB then
          b (i - off A.bsize.get irowb) (j - off A.bsize.get icolb) else 0) := by
    refine ⟨hI, ?_, hs.N.trans h.dim, by rw [hs.bsize, hs.NB]; exact h.N_eq, ?_⟩
    · intro ib hib
      rw [hs.NB] at hib
      have hgd := h.good ib hib
      rw [hs.NB, hs.bsize]
      beta_reduce
      by_cases hin : irowb ≤ ib ∧ ib < irowb + B.NB
      · rw [if_pos hin]
        have hi2 : ib - irowb < B.NB := by omega
        have hgB := hB.good (ib - irowb) hi2
        refine ⟨?_, ?_, ?_⟩
        · rw [List.map_append, List.nodup_append]
          refine ⟨hgd.nodup, shiftRow_nodup hgB.nodup, ?_⟩
          rintro x hx y hy rfl
          rw [shiftRow_cols] at hy
          obtain ⟨c, hc1, rfl⟩ := List.mem_map.1 hy
          have hcb : c < B.NB := by
            obtain ⟨p, hp, rfl⟩ := List.mem_map.1 hc1
            exact hgB.lt p hp
          refine hno (ib - irowb) c hi2 hcb ((hB.has_iff hi2).2 hc1) ?_
          rw [show irowb + (ib - irowb) = ib by omega, h.has_iff hib, Nat.add_comm]
          exact hx
        · intro p hp
          rcases List.mem_append.1 hp with hp | hp
          · exact hgd.lt p hp
          · obtain ⟨q, hq, rfl⟩ := List.mem_map.1 hp
            have := hgB.lt q hq
            simp only
            omega
        · intro p hp
          rcases List.mem_append.1 hp with hp | hp
          · exact hgd.size p hp
          · obtain ⟨q, hq, rfl⟩ := List.mem_map.1 hp
            have hq' := hgB.lt q hq
            simp only
            have e1 := (hsz (ib - irowb) hi2).2.1
            rw [show irowb + (ib - irowb) = ib by omega] at e1
            have e2 := (hsz q.1 hq').2.2
            rw [e1, Nat.add_comm q.1 icolb, e2, (hsz (ib - irowb) hi2).1, (hsz q.1 hq').1]
      · rw [if_neg hin]
        exact hgd
    · intro ib jb ii jj hib hjb hii hjj
      rw [hs.NB] at hib hjb
      rw [hs.bsize] at hii hjj ⊢
      have hd := h.den ib jb ii jj hib hjb hii hjj
      have hNBo : off B.bsize.get B.NB = NB := hB.N_eq
      beta_reduce
      by_cases hin : irowb ≤ ib ∧ ib < irowb + B.NB
      · rw [if_pos hin, val_append, hd, val_shiftRow]
        congr 1
        have e1 := er (ib - irowb) (by omega)
        rw [show irowb + (ib - irowb) = ib by omega] at e1
        have s1 := (hsz (ib - irowb) (by omega)).2.1
        rw [show irowb + (ib - irowb) = ib by omega] at s1
        have h1 : off B.bsize.get (ib - irowb) + ii < NB := by
          rw [← hNBo]; exact off_lt (by omega) (by rw [← s1]; exact hii)
        by_cases hj : icolb ≤ jb
        · rw [if_pos hj]
          by_cases hj2 : jb < icolb + B.NB
          · have e2 := ec (jb - icolb) (by omega)
            rw [show icolb + (jb - icolb) = jb by omega] at e2
            have s2 := (hsz (jb - icolb) (by omega)).2.2
            rw [show icolb + (jb - icolb) = jb by omega] at s2
            have h2 : off B.bsize.get (jb - icolb) + jj < NB := by
              rw [← hNBo]; exact off_lt (by omega) (by rw [← s2]; exact hjj)
            rw [if_pos ⟨by omega, by omega, by omega, by omega⟩]
            have := hB.den (ib - irowb) (jb - icolb) ii jj (by omega) (by omega)
              (by rw [← s1]; exact hii) (by rw [← s2]; exact hjj)
            rw [s2, this, e1, e2, Nat.add_assoc, Nat.add_assoc, Nat.add_sub_cancel_left,
              Nat.add_sub_cancel_left]
          · have e2 := ec B.NB (le_refl _)
            have := off_mono A.bsize.get (show icolb + B.NB ≤ jb by omega)
            rw [val_of_not_mem, if_neg (by omega)]
            intro hm
            obtain ⟨p, hp, hpe⟩ := List.mem_map.1 hm
            have := (hB.good (ib - irowb) (by omega)).lt p hp
            omega
        · have : off A.bsize.get jb + jj < off A.bsize.get icolb := off_lt (by omega) hjj
          rw [if_neg hj, if_neg (by omega)]
      · rw [if_neg hin, hd, if_neg, add_zero]
        have e2 := er B.NB (le_refl _)
        rcases Nat.lt_or_ge ib irowb with hlt | hge
        · have : off A.bsize.get ib + ii < off A.bsize.get irowb := off_lt hlt hii
          omega
        · have := off_mono A.bsize.get (show irowb + B.NB ≤ ib by omega)
          omega
  refine ⟨hs, hc, ⟨_, hR⟩, ?_⟩
  intro ib jb hib hjb
  rw [hR.has_iff (by rw [hs.NB]; exact hib), h.has_iff hib]
  beta_reduce
  by_cases hin : irowb ≤ ib ∧ ib < irowb + B.NB
  · rw [if_pos hin, List.map_append, List.mem_append, shiftRow_cols]
    refine or_congr_right ?_
    rw [List.mem_map]
    rw [hB.has_iff (show ib - irowb < B.NB by omega)]
    constructor
    · rintro ⟨c, hc1, rfl⟩
      have hcb : c < B.NB := by
        obtain ⟨p, hp, rfl⟩ := List.mem_map.1 hc1
        exact (hB.good (ib - irowb) (by omega)).lt p hp
      exact ⟨hin.1, hin.2, by omega, by omega, by rwa [Nat.add_sub_cancel]⟩
    · rintro ⟨-, -, h3, -, h5⟩
      exact ⟨_, h5, by omega⟩
  · rw [if_neg hin]
    constructor
    · exact Or.inl
    · rintro (h1 | h1)
      · exact h1
      · exact absurd ⟨h1.1, h1.2.1⟩ hin

end

end EllB

end Bml
