import Verif.Ellblock.Ops

/-!
# Block-ELLPACK: rows, diagonals, whole blocks
-/

set_option linter.unusedSectionVars false

namespace Bml

namespace EllB

variable {R : Type} {E : Prop}

/-- Two indices lie in the same block of the partition `bs`. -/
def Together (bs : Nat → Nat) (i i' : Nat) : Prop :=
  ∃ ib, off bs ib ≤ i ∧ i < off bs (ib + 1) ∧ off bs ib ≤ i' ∧ i' < off bs (ib + 1)

theorem together_iff {bs : Nat → Nat} {ib ii : Nat} (hii : ii < bs ib) (i' : Nat) :
    Together bs (off bs ib + ii) i' ↔ ∃ ii', ii' < bs ib ∧ i' = off bs ib + ii' := by
  constructor
  · rintro ⟨c, h1, h2, h3, h4⟩
    rw [off_succ] at h2 h4
    have := off_inj (bs := bs) (ib := ib) (ii := ii) (ib' := c) (ii' := off bs ib + ii - off bs c) hii
      (by omega) (by omega)
    obtain ⟨rfl, -⟩ := this
    exact ⟨i' - off bs ib, by omega, by omega⟩
  · rintro ⟨ii', h, rfl⟩
    exact ⟨ib, by omega, by rw [off_succ]; omega, by omega, by rw [off_succ]; omega⟩

open Classical in
/-- Thresholding by blocks: a value is kept if any value of its block is above the threshold. -/
noncomputable def keepBlk [Zero R] (bs : Nat → Nat) (big : R → Bool) (a : Spec.Mat R) : Spec.Mat R :=
  fun i j => if ∃ i' j', Together bs i i' ∧ Together bs j j' ∧ big (a i' j') = true then a i j else 0

theorem keepBlk_eq [Zero R] {bs : Nat → Nat} {big : R → Bool} {a : Spec.Mat R} {ib jb ii jj : Nat}
    (hii : ii < bs ib) (hjj : jj < bs jb) [Decidable (∃ ii' jj', ii' < bs ib ∧ jj' < bs jb ∧
      big (a (off bs ib + ii') (off bs jb + jj')) = true)] :
    keepBlk bs big a (off bs ib + ii) (off bs jb + jj) =
      if ∃ ii' jj', ii' < bs ib ∧ jj' < bs jb ∧
        big (a (off bs ib + ii') (off bs jb + jj')) = true
      then a (off bs ib + ii) (off bs jb + jj) else 0 := by
  unfold keepBlk
  have : (∃ i' j', Together bs (off bs ib + ii) i' ∧ Together bs (off bs jb + jj) j' ∧
      big (a i' j') = true) ↔ ∃ ii' jj', ii' < bs ib ∧ jj' < bs jb ∧
        big (a (off bs ib + ii') (off bs jb + jj')) = true := by
    constructor
    · rintro ⟨i', j', h1, h2, h3⟩
      obtain ⟨ii', h4, rfl⟩ := (together_iff hii _).1 h1
      obtain ⟨jj', h5, rfl⟩ := (together_iff hjj _).1 h2
      exact ⟨ii', jj', h4, h5, h3⟩
    · rintro ⟨ii', jj', h1, h2, h3⟩
      exact ⟨_, _, (together_iff hii _).2 ⟨ii', h1, rfl⟩, (together_iff hjj _).2 ⟨jj', h2, rfl⟩, h3⟩
  by_cases hc : ∃ ii' jj', ii' < bs ib ∧ jj' < bs jb ∧
        big (a (off bs ib + ii') (off bs jb + jj')) = true
  · rw [if_pos hc, if_pos (this.2 hc)]
  · rw [if_neg hc, if_neg (fun h => hc (this.1 h))]

theorem wp_offsets {bs : Arr Nat} {NB : Nat} (hb : NB ≤ bs.size) (h0 : 0 < NB) :
    (offsets bs NB).wp E (fun o => o.size = NB ∧ ∀ ib, ib < NB → o.get ib = off bs.get ib) := by
  unfold offsets
  simp only [Res.wp_bind, Arr.wp_write]
  refine ⟨h0, ?_⟩
  refine wp_loopFrom (fun n (o : Arr Nat) => o.size = NB ∧ ∀ ib, ib < n → o.get ib = off bs.get ib)
    (by omega) ⟨rfl, ?_⟩ ?_ (fun _ h => h)
  · intro ib hib
    have : ib = 0 := by omega
    subst this
    simp [off_zero]
  · rintro n h1 h2 o ⟨h3, h4⟩
    simp only [Res.wp_bind, Arr.wp_read, Arr.wp_write]
    refine ⟨by omega, by omega, by omega, h3, ?_⟩
    intro ib hib
    by_cases he : ib = n
    · subst he
      rw [upd_same, h4 (ib - 1) (by omega), ← off_succ]
      congr 1
      omega
    · rw [upd_ne _ _ he]
      exact h4 ib (by omega)

theorem wp_anyBig {big : R → Bool} {v : Arr R} {o n : Nat} (h : o + n ≤ v.size) :
    (anyBig big v o n).wp E (fun s => s = true ↔ ∃ k, k < n ∧ big (v.get (o + k)) = true) := by
  unfold anyBig
  refine wp_loop' (fun n (s : Bool) => s = true ↔ ∃ k, k < n ∧ big (v.get (o + k)) = true)
    (by simp) ?_ (fun _ h => h)
  intro k hk s hs
  simp only [Res.wp_bind, Arr.wp_read, Res.wp_pure]
  refine ⟨by omega, ?_⟩
  rw [Bool.or_eq_true, hs]
  constructor
  · rintro (⟨k', h1, h2⟩ | h)
    · exact ⟨k', by omega, h2⟩
    · exact ⟨k, by omega, h⟩
  · rintro ⟨k', h1, h2⟩
    by_cases he : k' = k
    · subst he; exact Or.inr h2
    · exact Or.inl ⟨k', by omega, h2⟩

theorem anyBig_eq {big : R → Bool} {v : Arr R} {o n : Nat} (h : o + n ≤ v.size) :
    ∃ s : Bool, anyBig big v o n = .ok s ∧
      (s = true ↔ ∃ k, k < n ∧ big (v.get (o + k)) = true) := by
  obtain ⟨s, e, hs⟩ := Res.wp_exists (wp_anyBig (E := False) (big := big) h)
  exact ⟨s, e, hs⟩

/-- Every position of a block is a pair of positions. -/
theorem exists_flat {n m : Nat} (p : Nat → Prop) :
    (∃ k, k < n * m ∧ p k) ↔ ∃ ii jj, ii < n ∧ jj < m ∧ p (ii * m + jj) := by
  constructor
  · rintro ⟨k, hk, hp⟩
    have hm : 0 < m := by
      rcases Nat.eq_zero_or_pos m with h | h
      · subst h; simp at hk
      · exact h
    refine ⟨k / m, k % m, ?_, Nat.mod_lt _ hm, ?_⟩
    · rw [Nat.mul_comm] at hk; exact Nat.div_lt_of_lt_mul hk
    · rw [Nat.div_add_mod' k m]; exact hp
  · rintro ⟨ii, jj, h1, h2, hp⟩
    exact ⟨ii * m + jj, addr_lt h1 h2, hp⟩

theorem wp_loop2 {σ : Type} {n m : Nat} {s : σ} {f : Nat → Nat → σ → Res σ} {Q : σ → Prop}
    (I : Nat → Nat → σ → Prop) (h0 : I 0 0 s)
    (hs : ∀ ii jj, ii < n → jj < m → ∀ s, I ii jj s → (f ii jj s).wp E (I ii (jj + 1)))
    (hrow : ∀ ii s, ii < n → I ii m s → I (ii + 1) 0 s) (hQ : ∀ s, I n 0 s → Q s) :
    (loop2 n m s f).wp E Q := by
  unfold loop2
  refine wp_loop' (fun ii s => I ii 0 s) h0 ?_ hQ
  intro ii hii s hI
  exact wp_loop' (fun jj s => I ii jj s) hI (fun jj hjj s hs' => hs ii jj hii hjj s hs')
    (fun s h => hrow ii s hii h)

/-- Filling a block element by element. -/
theorem wp_fill {n m : Nat} {b : Arr R} (hb : b.size = n * m) {f : Nat → Nat → Res R}
    {g : Nat → Nat → R} (hf : ∀ ii jj, ii < n → jj < m → f ii jj = .ok (g ii jj)) :
    (loop2 n m b fun ii jj b => do
      let v ← f ii jj
      b.write (ROWMAJOR ii jj n m) v).wp E
      (fun b' => b'.size = n * m ∧ ∀ ii jj, ii < n → jj < m → b'.get (ii * m + jj) = g ii jj) := by
  refine wp_loop2 (fun i j (b' : Arr R) => b'.size = n * m ∧ ∀ ii jj, ii < n → jj < m →
    (ii < i ∨ (ii = i ∧ jj < j)) → b'.get (ii * m + jj) = g ii jj) ⟨hb, ?_⟩ ?_ ?_ ?_
  · intro ii jj _ _ h; omega
  · rintro ii jj hii hjj b' ⟨h1, h2⟩
    rw [hf ii jj hii hjj, Res.bind_ok]
    simp only [Arr.wp_write, ROWMAJOR]
    refine ⟨by rw [h1]; exact addr_lt hii hjj, h1, ?_⟩
    intro i' j' hi' hj' hlt
    by_cases he : i' = ii ∧ j' = jj
    · obtain ⟨rfl, rfl⟩ := he
      rw [upd_same]
    · rw [upd_ne]
      · exact h2 i' j' hi' hj' (by omega)
      · intro hh
        exact he (addr_inj hj' hjj hh)
  · rintro ii b' hii ⟨h1, h2⟩
    exact ⟨h1, fun i' j' hi' hj' hlt => h2 i' j' hi' hj' (by omega)⟩
  · rintro b' ⟨h1, h2⟩
    exact ⟨h1, fun ii jj hii hjj => h2 ii jj hii hjj (by omega)⟩

section
variable [AddCommMonoid R] {A : EllB R} {L : Nat → BRow R} {N : Nat} {a : Spec.Mat R}

theorem Rows.NB_pos (h : A.Rows N L a) {i : Nat} (hi : i < N) : 0 < A.NB := by
  obtain ⟨ib, ii, h1, -⟩ := h.surj hi
  omega

/-- `bml_get_row`. -/
theorem Rows.wp_getRow (h : A.Rows N L a) {i : Nat} (hi : i < N) :
    (A.getRow i).wp E (fun r => r.size = N ∧ ∀ j, j < N → r.get j = a i j) := by
  obtain ⟨ib, ii, h1, h2, rfl⟩ := h.surj hi
  unfold getRow
  rw [h.find_eq h1 h2, Res.bind_ok]
  simp only [Res.wp_bind]
  refine Res.wp_mono (wp_offsets (by rw [h.is.bs_size]) (by omega)) ?_
  rintro o ⟨ho, hov⟩
  have hg := h.good ib h1
  rw [h.is.eachIdx_eq h1 _ _ (fun p row => loop (A.bsize.get p.1) row fun jj row => do
      let o ← o.read p.1
      let v ← p.2.read (ROWMAJOR ii jj (A.bsize.get ib) (A.bsize.get p.1))
      row.write (o + jj) v) (by
    intro jp jb b s hs
    rw [h.is.block_eq h1 hs, Res.bind_ok, h.is.bsize_eq h1, Res.bind_ok,
      h.is.bsize_eq (hg.lt _ (List.mem_of_getElem? hs)), Res.bind_ok])]
  refine wp_forList (fun done (r : Arr R) => r.size = N ∧ ∀ jb jj, jb < A.NB →
    jj < A.bsize.get jb → r.get (off A.bsize.get jb + jj) =
      if jb ∈ done.map Prod.fst then a (off A.bsize.get ib + ii) (off A.bsize.get jb + jj) else 0)
    ⟨h.dim, by simp⟩ ?_ ?_
  · rintro pre ⟨jb, b⟩ post hl r ⟨h3, h4⟩
    have hm : (jb, b) ∈ L ib := by rw [hl]; simp
    have hjb : jb < A.NB := hg.lt _ hm
    refine wp_loop' (fun n (r : Arr R) => r.size = N ∧ ∀ jb' jj, jb' < A.NB →
      jj < A.bsize.get jb' → r.get (off A.bsize.get jb' + jj) =
        if jb' ∈ pre.map Prod.fst ∨ (jb' = jb ∧ jj < n) then
          a (off A.bsize.get ib + ii) (off A.bsize.get jb' + jj) else 0)
      ⟨h3, fun jb' jj h5 h6 => (h4 jb' jj h5 h6).trans (if_congr (by simp) rfl rfl)⟩ ?_ ?_
    · rintro n hn r' ⟨h5, h6⟩
      simp only [Res.wp_bind, Arr.wp_read, Arr.wp_write, ROWMAJOR]
      refine ⟨by omega, ?_, ?_, h5, ?_⟩
      · exact Nat.lt_of_lt_of_le (addr_lt h2 hn) (hg.size _ hm)
      · rw [hov jb hjb, h5]
        have := off_lt hjb hn
        rwa [h.N_eq] at this
      · intro jb' jj hjb' hjj
        rw [hov jb hjb]
        by_cases he : jb' = jb ∧ jj = n
        · obtain ⟨rfl, rfl⟩ := he
          rw [upd_same, if_pos (Or.inr ⟨rfl, by omega⟩), ← h.den ib jb' ii jj h1 hjb h2 hn,
            val_of_mem hg.nodup hm]
        · rw [upd_ne _ _ (by intro hh; exact he (off_inj hjj hn hh)), h6 jb' jj hjb' hjj]
          congr 1
          apply propext
          constructor
          · rintro (h | ⟨rfl, h⟩)
            · exact Or.inl h
            · exact Or.inr ⟨rfl, by omega⟩
          · rintro (h | ⟨rfl, h⟩)
            · exact Or.inl h
            · refine Or.inr ⟨rfl, ?_⟩
              have : jj ≠ n := fun e => he ⟨rfl, e⟩
              omega
    · rintro r' ⟨h5, h6⟩
      refine ⟨h5, fun jb' jj hjb' hjj => ?_⟩
      rw [h6 jb' jj hjb' hjj]
      congr 1
      apply propext
      simp only [List.map_append, List.map_cons, List.map_nil, List.mem_append, List.mem_singleton]
      constructor
      · rintro (h | ⟨h, -⟩)
        · exact Or.inl h
        · exact Or.inr h
      · rintro (h | rfl)
        · exact Or.inl h
        · exact Or.inr ⟨rfl, hjj⟩
  · rintro r ⟨h3, h4⟩
    refine ⟨h3, fun j hj => ?_⟩
    obtain ⟨jb, jj, h5, h6, rfl⟩ := h.surj hj
    rw [h4 jb jj h5 h6]
    split
    · rfl
    · next hn => rw [← h.den ib jb ii jj h1 h5 h2 h6, val_of_not_mem hn]

/-- `bml_get_diagonal`. -/
theorem Rows.wp_getDiagonal (h : A.Rows N L a) :
    (A.getDiagonal).wp E (fun d => d.size = N ∧ ∀ i, i < N → d.get i = a i i) := by
  unfold getDiagonal
  simp only [Res.wp_bind]
  refine wp_loop' (fun n (s : Arr R × Nat) => s.2 = off A.bsize.get n ∧ s.1.size = N ∧
    ∀ ib ii, ib < A.NB → ii < A.bsize.get ib → s.1.get (off A.bsize.get ib + ii) =
      if ib < n then a (off A.bsize.get ib + ii) (off A.bsize.get ib + ii) else 0)
    ⟨rfl, h.dim, by simp⟩ ?_ ?_
  · rintro ib hib ⟨d, o⟩ ⟨ho, h3, h4⟩
    simp only at ho h3 h4
    subst ho
    have hg := h.good ib hib
    rw [h.is.bsize_eq hib, Res.bind_ok]
    simp only [Res.wp_bind]
    rw [h.is.eachIdx_eq hib _ _ (fun p d => if p.1 = ib then
        loop (A.bsize.get ib) d fun ii d => do
          let v ← p.2.read (ROWMAJOR ii ii (A.bsize.get ib) (A.bsize.get ib))
          d.write (off A.bsize.get ib + ii) v
        else pure d) (by
      intro jp jb b s hs
      simp only
      split
      · rw [h.is.blockAssert_eq hib hs, Res.bind_ok]
      · rfl)]
    refine wp_forList (fun done (d' : Arr R) => d'.size = N ∧ ∀ ib' ii, ib' < A.NB →
      ii < A.bsize.get ib' → d'.get (off A.bsize.get ib' + ii) =
        if ib' < ib ∨ (ib' = ib ∧ ib ∈ done.map Prod.fst) then
          a (off A.bsize.get ib' + ii) (off A.bsize.get ib' + ii) else 0)
      ⟨h3, fun ib' ii a1 a2 => by rw [h4 ib' ii a1 a2]; simp⟩ ?_ ?_
    · rintro pre ⟨jb, b⟩ post hl d' ⟨h5, h6⟩
      have hm : (jb, b) ∈ L ib := by rw [hl]; simp
      simp only
      by_cases he : jb = ib
      · subst he
        rw [if_pos rfl]
        refine wp_loop' (fun n (d' : Arr R) => d'.size = N ∧ ∀ ib' ii, ib' < A.NB →
          ii < A.bsize.get ib' → d'.get (off A.bsize.get ib' + ii) =
            if ib' < jb ∨ (ib' = jb ∧ (jb ∈ pre.map Prod.fst ∨ ii < n)) then
              a (off A.bsize.get ib' + ii) (off A.bsize.get ib' + ii) else 0)
          ⟨h5, fun ib' ii a1 a2 => (h6 ib' ii a1 a2).trans (if_congr (by simp) rfl rfl)⟩ ?_ ?_
        · rintro n hn d2 ⟨h7, h8⟩
          simp only [Res.wp_bind, Arr.wp_read, Arr.wp_write, ROWMAJOR]
          refine ⟨Nat.lt_of_lt_of_le (addr_lt hn hn) (hg.size _ hm), ?_, h7, ?_⟩
          · rw [h7]
            have := off_lt hib hn
            rwa [h.N_eq] at this
          · intro ib' ii a1 a2
            by_cases he : ib' = jb ∧ ii = n
            · obtain ⟨rfl, rfl⟩ := he
              rw [upd_same, if_pos (Or.inr ⟨rfl, Or.inr (by omega)⟩),
                ← h.den ib' ib' ii ii a1 a1 a2 a2, val_of_mem hg.nodup hm]
            · rw [upd_ne _ _ (by intro hh; exact he (off_inj a2 hn hh)), h8 ib' ii a1 a2]
              congr 1
              apply propext
              constructor
              · rintro (h | ⟨rfl, h | h⟩)
                · exact Or.inl h
                · exact Or.inr ⟨rfl, Or.inl h⟩
                · exact Or.inr ⟨rfl, Or.inr (by omega)⟩
              · rintro (h | ⟨rfl, h | h⟩)
                · exact Or.inl h
                · exact Or.inr ⟨rfl, Or.inl h⟩
                · refine Or.inr ⟨rfl, Or.inr ?_⟩
                  have : ii ≠ n := fun e => he ⟨rfl, e⟩
                  omega
        · rintro d2 ⟨h7, h8⟩
          refine ⟨h7, fun ib' ii a1 a2 => ?_⟩
          rw [h8 ib' ii a1 a2]
          congr 1
          apply propext
          constructor
          · rintro (h | ⟨rfl, -⟩)
            · exact Or.inl h
            · exact Or.inr ⟨rfl, by simp⟩
          · rintro (h | ⟨rfl, -⟩)
            · exact Or.inl h
            · exact Or.inr ⟨rfl, Or.inr a2⟩
      · rw [if_neg he, Res.wp_pure]
        refine ⟨h5, fun ib' ii a1 a2 => ?_⟩
        rw [h6 ib' ii a1 a2]
        congr 1
        simp only [List.map_append, List.map_cons, List.map_nil, List.mem_append,
          List.mem_singleton]
        apply propext
        constructor
        · rintro (h | ⟨h, h'⟩)
          · exact Or.inl h
          · exact Or.inr ⟨h, Or.inl h'⟩
        · rintro (h | ⟨h, h' | h'⟩)
          · exact Or.inl h
          · exact Or.inr ⟨h, h'⟩
          · exact absurd h'.symm he
    · rintro d' ⟨h5, h6⟩
      rw [Res.wp_pure]
      refine ⟨(off_succ _ _).symm, h5, fun ib' ii a1 a2 => ?_⟩
      rw [h6 ib' ii a1 a2]
      by_cases hlt : ib' < ib
      · rw [if_pos (Or.inl hlt), if_pos (by omega)]
      · by_cases he : ib' = ib
        · subst he
          rw [if_pos (show ib' < ib' + 1 by omega)]
          split
          · rfl
          · next hc =>
            rw [← h.den ib' ib' ii ii a1 a1 a2 a2, val_of_not_mem]
            intro hm; exact hc (Or.inr ⟨rfl, hm⟩)
        · rw [if_neg (by rintro (h | ⟨h, -⟩) <;> omega), if_neg (by omega)]
  · rintro ⟨d, o⟩ ⟨-, h3, h4⟩
    rw [Res.wp_pure]
    refine ⟨h3, fun i hi => ?_⟩
    obtain ⟨ib, ii, h5, h6, rfl⟩ := h.surj hi
    rw [h4 ib ii h5 h6, if_pos h5]

/-- Agreement of two matrices on every block but one. -/
def AgreeOff (A : EllB R) (ib jb : Nat) (a a' : Spec.Mat R) : Prop :=
  ∀ ib' jb' ii jj, ib' < A.NB → jb' < A.NB → ii < A.bsize.get ib' → jj < A.bsize.get jb' →
    ¬ (ib' = ib ∧ jb' = jb) → a' (off A.bsize.get ib' + ii) (off A.bsize.get jb' + jj) =
      a (off A.bsize.get ib' + ii) (off A.bsize.get jb' + jj)

theorem AgreeOff.other {ib jb : Nat} {a' : Spec.Mat R} (hag : A.AgreeOff ib jb a a')
    (h : A.Rows N L a) : ∀ i j, i < N → j < N →
      (∀ ii, ii < A.bsize.get ib → i ≠ off A.bsize.get ib + ii) → a' i j = a i j := by
  intro i j hi hj hne
  obtain ⟨ib', ii, h1, h2, rfl⟩ := h.surj hi
  obtain ⟨jb', jj, h3, h4, rfl⟩ := h.surj hj
  refine hag ib' jb' ii jj h1 h3 h2 h4 ?_
  rintro ⟨rfl, -⟩
  exact hne ii h2 rfl

/-- Replacing the content of a stored block. -/
theorem Rows.put (h : A.Rows N L a) {ib jb k0 : Nat} {b b' : Arr R} (hi : ib < A.NB)
    (hs : (L ib)[k0]? = some (jb, b)) (hb : b'.size = b.size) {a' : Spec.Mat R}
    (hin : ∀ ii jj, ii < A.bsize.get ib → jj < A.bsize.get jb → b'.get (ii * A.bsize.get jb + jj) =
      a' (off A.bsize.get ib + ii) (off A.bsize.get jb + jj))
    (hout : A.AgreeOff ib jb a a') :
    Wrote A (A.withBlock (ib * A.MB + k0) b') N ib jb L
      (upd L ib ((L ib).set k0 (jb, b'))) a' := by
  have hg := h.good ib hi
  have hm := List.mem_of_getElem? hs
  refine ⟨h.update (same_withBlock _ _ _) (h.is.withBlock hi hs _) (fun _ => hg.set hs hb) ?_
    (hout.other h), same_withBlock _ _ _, fun hc => hc.withBlock _ _,
    fun ib' hne => upd_ne _ _ hne, ?_⟩
  · intro jb' ii jj _ h1 h2 h3
    rw [val_set hg.nodup hs]
    split
    · next he => subst he; exact hin ii jj h2 h3
    · next he =>
      rw [h.den ib jb' ii jj hi h1 h2 h3, hout ib jb' ii jj hi h1 h2 h3 (fun hh => he hh.2)]
  · rw [upd_same, set_fst _ hs, if_pos]
    exact List.mem_map.2 ⟨_, hm, rfl⟩

/-- Appending a block. -/
theorem Rows.add (h : A.Rows N L a) {ib jb : Nat} {b : Arr R} (hi : ib < A.NB) (hj : jb < A.NB)
    (hn : jb ∉ (L ib).map Prod.fst) (hcap : (L ib).length < A.MB)
    (hb : b.size = A.bsize.get ib * A.bsize.get jb) {a' : Spec.Mat R}
    (hin : ∀ ii jj, ii < A.bsize.get ib → jj < A.bsize.get jb → b.get (ii * A.bsize.get jb + jj) =
      a' (off A.bsize.get ib + ii) (off A.bsize.get jb + jj))
    (hout : A.AgreeOff ib jb a a') :
    Wrote A (A.app ib jb b) N ib jb L (upd L ib (L ib ++ [(jb, b)])) a' := by
  have hg := h.good ib hi
  refine ⟨h.update (same_app _ _ _ _) (h.is.app hi hcap _ _) (fun _ => hg.append hj hn hb) ?_
    (hout.other h), same_app _ _ _ _, fun hc => hc.app h.is hi hcap _ _,
    fun ib' hne => upd_ne _ _ hne, ?_⟩
  · intro jb' ii jj _ h1 h2 h3
    rw [val_append]
    simp only [val_cons, val_nil, add_zero]
    by_cases he : jb' = jb
    · subst he
      rw [if_pos rfl, val_of_not_mem hn, zero_add]
      exact hin ii jj h2 h3
    · rw [if_neg (fun e => he e.symm), add_zero, h.den ib jb' ii jj hi h1 h2 h3,
        hout ib jb' ii jj hi h1 h2 h3 (fun hh => he hh.2)]
  · rw [upd_same, if_neg hn]
    simp

/-- Appending when only the values change that the new block holds. -/
theorem Is.append_wp (h : A.Is L) {ib : Nat} (hi : ib < A.NB) (hcap : (L ib).length < A.MB)
    (jb : Nat) (b : Arr R) : (do
      let A1 ← A.alloc (ib * A.MB + (L ib).length) b
      let A2 ← A1.setIndex (ib * A.MB + (L ib).length) jb
      A2.setNnzb ib ((L ib).length + 1)) = .ok (A.app ib jb b) := by
  rw [← h.append_eq hi hcap jb b]
  unfold alloc
  rw [Arr.write_ok _ (h.addr hi hcap)]
  rfl

/-- The block columns of block row `ib` that a row write can touch fit into the block row. -/
def RowFits (A : EllB R) (big : R → Bool) (row : Nat → R) (ib : Nat) : Prop :=
  ∃ S : Finset Nat, S.card ≤ A.MB ∧ ∀ jb, jb < A.NB →
    (A.Has ib jb ∨ ∃ jj, jj < A.bsize.get jb ∧ big (row (off A.bsize.get jb + jj)) = true) → jb ∈ S

theorem Rows.has_iff (h : A.Rows N L a) {ib jb : Nat} (hi : ib < A.NB) :
    A.Has ib jb ↔ jb ∈ (L ib).map Prod.fst := by
  unfold Has
  constructor
  · rintro ⟨jp, h1, h2⟩
    rw [h.is.nz ib hi] at h1
    obtain ⟨⟨c, b⟩, hx⟩ : ∃ x, (L ib)[jp]? = some x := ⟨_, List.getElem?_eq_getElem h1⟩
    have := (h.is.slot ib jp c b hi hx).1
    rw [h2] at this
    subst this
    exact List.mem_map.2 ⟨_, List.mem_of_getElem? hx, rfl⟩
  · intro hm
    obtain ⟨⟨c, b⟩, hp, rfl⟩ := List.mem_map.1 hm
    obtain ⟨k, hk⟩ := List.mem_iff_getElem?.1 hp
    obtain ⟨h1, -⟩ := List.getElem?_eq_some_iff.1 hk
    exact ⟨k, by rw [h.is.nz ib hi]; exact h1, (h.is.slot ib k c b hi hk).1⟩

theorem length_lt_of_subset {l : List Nat} (hn : l.Nodup) {S : Finset Nat} (hs : ∀ c ∈ l, c ∈ S)
    {c : Nat} (hc : c ∉ l) (hcS : c ∈ S) : l.length < S.card := by
  have h1 : (l.toFinset).card = l.length := List.toFinset_card_of_nodup hn
  have h2 : insert c l.toFinset ⊆ S := by
    intro x hx
    rcases Finset.mem_insert.1 hx with rfl | hx
    · exact hcS
    · exact hs x (List.mem_toFinset.1 hx)
  have h3 := Finset.card_le_card h2
  rw [Finset.card_insert_of_notMem (by rwa [List.mem_toFinset])] at h3
  omega

/-- `bml_set_row`: the elements above the threshold are written, the others stay. -/
theorem Rows.wp_setRow (h : A.Rows N L a) (big : R → Bool) {ib ii : Nat} (hi : ib < A.NB)
    (hii : ii < A.bsize.get ib) {row : Arr R} (hrow : N ≤ row.size)
    (hfit : A.RowFits big row.get ib) :
    (A.setRow big (off A.bsize.get ib + ii) row).wp E (fun A' => ∃ L', A'.Rows N L' (fun i j =>
        if i = off A.bsize.get ib + ii ∧ big (row.get j) = true then row.get j else a i j) ∧
      Same A A' ∧ (A.Clean → A'.Clean)) := by
  obtain ⟨S, hS, hSm⟩ := hfit
  unfold setRow
  rw [h.find_eq hi hii, Res.bind_ok]
  simp only
  rw [h.dim]
  refine wp_loop' (fun k (A' : EllB R) => ∃ L', A'.Rows N L' (fun i j =>
        if i = off A.bsize.get ib + ii ∧ j < k ∧ big (row.get j) = true then row.get j else a i j) ∧
      Same A A' ∧ (A.Clean → A'.Clean) ∧ ∀ c ∈ (L' ib).map Prod.fst, c ∈ S) ?_ ?_ ?_
  · refine ⟨L, h.congr ?_, Same.refl _, id, ?_⟩
    · intro i j _ _
      beta_reduce
      rw [if_neg (by omega)]
    · intro c hc
      refine hSm c ?_ (Or.inl ((h.has_iff hi).2 hc))
      obtain ⟨p, hp, rfl⟩ := List.mem_map.1 hc
      exact (h.good ib hi).lt p hp
  · rintro k hk A' ⟨L', hR, hs, hcl, hsub⟩
    rw [Arr.read_ok (show k < row.size by omega), Res.bind_ok]
    by_cases hb : big (row.get k) = true
    · rw [if_pos hb]
      obtain ⟨jb, jj, hj, hjj, rfl⟩ := h.surj hk
      have s5 := hs.bsize
      have s3 := hs.NB
      have hi' : ib < A'.NB := by rw [s3]; exact hi
      have hj' : jb < A'.NB := by rw [s3]; exact hj
      have hii' : ii < A'.bsize.get ib := by rw [s5]; exact hii
      have hjj' : jj < A'.bsize.get jb := by rw [s5]; exact hjj
      have hfe := hR.find_eq hj' hjj'
      rw [s5] at hfe
      rw [hfe, Res.bind_ok]
      simp only
      rw [hR.is.bsize_eq hi', Res.bind_ok, hR.is.bsize_eq hj', Res.bind_ok]
      have hset : Spec.Eq N (Spec.set (fun i j => if i = off A.bsize.get ib + ii ∧
            j < off A.bsize.get jb + jj ∧ big (row.get j) = true then row.get j else a i j)
            (off A'.bsize.get ib + ii) (off A'.bsize.get jb + jj)
            (row.get (off A.bsize.get jb + jj))) (fun i j => if i = off A.bsize.get ib + ii ∧
            j < off A.bsize.get jb + jj + 1 ∧ big (row.get j) = true then row.get j else a i j) := by
        intro i j _ _
        rw [s5]
        unfold Spec.set
        by_cases he : i = off A.bsize.get ib + ii ∧ j = off A.bsize.get jb + jj
        · obtain ⟨rfl, rfl⟩ := he
          beta_reduce
          rw [if_pos ⟨rfl, rfl⟩, if_pos ⟨rfl, by omega, hb⟩]
        · rw [if_neg he]
          refine if_congr ?_ rfl rfl
          constructor
          · rintro ⟨e1, e2, e3⟩; exact ⟨e1, by omega, e3⟩
          · rintro ⟨e1, e2, e3⟩
            refine ⟨e1, ?_, e3⟩
            have : j ≠ off A.bsize.get jb + jj := fun e => he ⟨e1, e⟩
            omega
      have fin : ∀ {A2 : EllB R} {L2 : Nat → BRow R}, Wrote A' A2 N ib jb L' L2
          (Spec.set (fun i j => if i = off A.bsize.get ib + ii ∧
            j < off A.bsize.get jb + jj ∧ big (row.get j) = true then row.get j else a i j)
            (off A'.bsize.get ib + ii) (off A'.bsize.get jb + jj)
            (row.get (off A.bsize.get jb + jj))) →
          ∃ L', A2.Rows N L' (fun i j => if i = off A.bsize.get ib + ii ∧
            j < off A.bsize.get jb + jj + 1 ∧ big (row.get j) = true then row.get j else a i j) ∧
          Same A A2 ∧ (A.Clean → A2.Clean) ∧ ∀ c ∈ (L' ib).map Prod.fst, c ∈ S := by
        intro A2 L2 hw
        refine ⟨L2, hw.rows.congr hset, hs.trans hw.same, fun hc => hw.clean (hcl hc), ?_⟩
        intro c hc
        rw [hw.cols] at hc
        split at hc
        · exact hsub c hc
        · rcases List.mem_append.1 hc with hc | hc
          · exact hsub c hc
          · simp at hc
            subst hc
            exact hSm c hj (Or.inr ⟨jj, hjj, hb⟩)
      simp only [ROWMAJOR]
      by_cases hm : jb ∈ (L' ib).map Prod.fst
      · obtain ⟨⟨c, b⟩, hp, rfl⟩ := List.mem_map.1 hm
        obtain ⟨k0, hk0⟩ := List.mem_iff_getElem?.1 hp
        have hsz := (hR.good ib hi').size _ hp
        rw [hR.is.writeMatching_some hi' (hR.good ib hi').nodup hk0
          (Nat.lt_of_lt_of_le (addr_lt hii' hjj') hsz) _ false, Res.bind_ok]
        exact fin (hR.wrote_stored hi' hj' hii' hjj' hk0 _)
      · rw [hR.is.writeMatching_none hi' hm, Res.bind_ok]
        simp only [Bool.false_eq_true, if_false]
        rw [hR.is.nnzb_eq hi', Res.bind_ok, unitBlock_eq (addr_lt hii' hjj'), Res.bind_ok]
        have hcap : (L' ib).length < A'.MB := by
          have := length_lt_of_subset (hR.good ib hi').nodup hsub hm
            (hSm jb hj (Or.inr ⟨jj, hjj, hb⟩))
          rw [List.length_map] at this
          rw [hs.MB]
          omega
        rw [hR.is.append_eq' hi' hcap]
        exact fin (hR.wrote_append hi' hj' hii' hjj' hm hcap _ rfl (fun k => rfl))
    · rw [if_neg hb, Res.wp_pure]
      refine ⟨L', hR.congr ?_, hs, hcl, hsub⟩
      intro i j _ _
      refine if_congr ?_ rfl rfl
      constructor
      · rintro ⟨e1, e2, e3⟩; exact ⟨e1, by omega, e3⟩
      · rintro ⟨e1, e2, e3⟩
        refine ⟨e1, ?_, e3⟩
        have : j ≠ k := by rintro rfl; exact hb e3
        omega
  · rintro A' ⟨L', hR, hs, hcl, -⟩
    refine ⟨L', hR.congr ?_, hs, hcl⟩
    intro i j _ hj
    refine if_congr ?_ rfl rfl
    constructor
    · rintro ⟨e1, e2, e3⟩; exact ⟨e1, e3⟩
    · rintro ⟨e1, e3⟩; exact ⟨e1, hj, e3⟩

theorem wp_writeDiag {n : Nat} {b : Arr R} (hb : n * n ≤ b.size) {f : Nat → Res R} {g : Nat → R}
    (hf : ∀ ii, ii < n → f ii = .ok (g ii)) :
    (writeDiag n b f).wp E (fun b' => b'.size = b.size ∧ ∀ ii jj, ii < n → jj < n →
      b'.get (ii * n + jj) = if ii = jj then g ii else b.get (ii * n + jj)) := by
  unfold writeDiag
  refine wp_loop' (fun m (b' : Arr R) => b'.size = b.size ∧ ∀ ii jj, ii < n → jj < n →
      b'.get (ii * n + jj) = if ii = jj ∧ ii < m then g ii else b.get (ii * n + jj))
    ⟨rfl, fun _ _ _ _ => by rw [if_neg (by omega)]⟩ ?_ ?_
  · rintro m hm b' ⟨h1, h2⟩
    rw [hf m hm, Res.bind_ok]
    simp only [Arr.wp_write, ROWMAJOR]
    refine ⟨by rw [h1]; exact Nat.lt_of_lt_of_le (addr_lt hm hm) hb, h1, ?_⟩
    intro ii jj hii hjj
    by_cases he : ii = m ∧ jj = m
    · obtain ⟨rfl, rfl⟩ := he
      rw [upd_same, if_pos ⟨rfl, by omega⟩]
    · rw [upd_ne _ _ (fun hh => he (addr_inj hjj hm hh)), h2 ii jj hii hjj]
      refine if_congr ?_ rfl rfl
      constructor
      · rintro ⟨e1, e2⟩; exact ⟨e1, by omega⟩
      · rintro ⟨e1, e2⟩; exact ⟨e1, by omega⟩
  · rintro b' ⟨h1, h2⟩
    refine ⟨h1, fun ii jj hii hjj => ?_⟩
    rw [h2 ii jj hii hjj]
    exact if_congr ⟨fun e => e.1, fun e => ⟨e, hii⟩⟩ rfl rfl

open Classical in
/-- The matrix after `bml_set_diagonal`: the diagonal of a block is written if any of its values is
above the threshold, zeroed otherwise. -/
noncomputable def diagSpec (bs : Nat → Nat) (big : R → Bool) (d : Nat → R) (a : Spec.Mat R) :
    Spec.Mat R :=
  fun i j => if i = j then (if ∃ i', Together bs i i' ∧ big (d i') = true then d i else 0) else a i j

theorem diag_iff {bs : Nat → Nat} {big : R → Bool} {d : Nat → R} {ib ii : Nat} (hii : ii < bs ib) :
    (∃ i', Together bs (off bs ib + ii) i' ∧ big (d i') = true) ↔
      ∃ k, k < bs ib ∧ big (d (off bs ib + k)) = true := by
  constructor
  · rintro ⟨i', h1, h2⟩
    obtain ⟨k, hk, rfl⟩ := (together_iff hii _).1 h1
    exact ⟨k, hk, h2⟩
  · rintro ⟨k, hk, h2⟩
    exact ⟨_, (together_iff hii _).2 ⟨k, hk, rfl⟩, h2⟩

theorem loop_hit {σ : Type} {n k0 : Nat} {f : Nat → σ → Res σ} {s s' : σ} (hk : k0 < n)
    (hlt : ∀ jp, jp < k0 → f jp s = .ok s) (hf : f k0 s = .ok s')
    (hgt : ∀ jp, k0 < jp → jp < n → f jp s' = .ok s') : loop n s f = .ok s' := by
  obtain ⟨r, e, hr⟩ := Res.wp_exists (wp_loop' (E := False) (n := n) (s := s) (f := f)
    (Q := fun r => r = s') (fun m r => r = if k0 < m then s' else s) (by rw [if_neg (by omega)]) (by
      rintro jp hjp r rfl
      rcases Nat.lt_trichotomy k0 jp with h | rfl | h
      · rw [if_pos h, hgt jp h hjp]
        show s' = _
        rw [if_pos (by omega)]
      · rw [if_neg (by omega), hf]
        show s' = _
        rw [if_pos (by omega)]
      · rw [if_neg (by omega), hlt jp h]
        show s = _
        rw [if_neg (by omega)]) (by
      rintro r rfl
      rw [if_pos hk]))
  rw [hr] at e
  exact e

theorem loop_miss {σ : Type} {n : Nat} {f : Nat → σ → Res σ} {s : σ}
    (hf : ∀ jp, jp < n → f jp s = .ok s) : loop n s f = .ok s := by
  obtain ⟨r, e, hr⟩ := Res.wp_exists (wp_loop' (E := False) (n := n) (s := s) (f := f)
    (Q := fun r => r = s) (fun _ r => r = s) rfl (by
      rintro jp hjp r rfl
      rw [hf jp hjp]
      rfl) (fun _ h => h))
  rw [hr] at e
  exact e

/-- The diagonal blocks a diagonal write needs fit into their block rows. -/
def DiagFits (A : EllB R) (big : R → Bool) (d : Nat → R) : Prop :=
  ∀ ib, ib < A.NB → (∃ k, k < A.bsize.get ib ∧ big (d (off A.bsize.get ib + k)) = true) →
    A.Has ib ib ∨ A.nnzb.get ib < A.MB

/-- `bml_set_diagonal`. -/
theorem Rows.wp_setDiagonal (h : A.Rows N L a) (big : R → Bool) {d : Arr R} (hd : N ≤ d.size)
    (hfit : A.DiagFits big d.get) :
    (A.setDiagonal big d).wp E (fun A' => ∃ L', A'.Rows N L' (diagSpec A.bsize.get big d.get a) ∧
      Same A A' ∧ (A.Clean → A'.Clean)) := by
  classical
  unfold setDiagonal
  simp only [Res.wp_bind]
  refine wp_loop' (fun n (s : EllB R × Nat) => s.2 = off A.bsize.get n ∧ ∃ L', s.1.Rows N L'
      (fun i j => if i < off A.bsize.get n then diagSpec A.bsize.get big d.get a i j else a i j) ∧
      Same A s.1 ∧ (A.Clean → s.1.Clean) ∧ ∀ ib, n ≤ ib → L' ib = L ib) ?_ ?_ ?_
  · refine ⟨rfl, L, h.congr ?_, Same.refl _, id, fun _ _ => rfl⟩
    intro i j _ _
    beta_reduce
    rw [if_neg (by rw [off_zero]; omega)]
  · rintro ib hi ⟨A', o⟩ ⟨ho, L', hR, hs, hcl, hL⟩
    simp only at ho hR hs hcl hL
    subst ho
    have s5 := hs.bsize
    have s3 := hs.NB
    have s4 := hs.MB
    have hi' : ib < A'.NB := by rw [s3]; exact hi
    have hrange : off A.bsize.get ib + A.bsize.get ib ≤ d.size := by
      have := off_mono A.bsize.get (show ib + 1 ≤ A.NB from hi)
      rw [off_succ, h.N_eq] at this
      omega
    obtain ⟨above, hab, habove⟩ := anyBig_eq (big := big) hrange
    have hdi : ∀ ii, ii < A.bsize.get ib → d.read (off A.bsize.get ib + ii) =
        .ok (d.get (off A.bsize.get ib + ii)) := fun ii hii => Arr.read_ok (by omega)
    simp only
    rw [hR.is.bsize_eq hi', s5, Res.bind_ok, hR.is.nnzb_eq hi', Res.bind_ok]
    -- the values of the diagonal block afterwards
    set g : Nat → R := fun ii => if above = true then d.get (off A.bsize.get ib + ii) else 0 with hg
    have hstep : ∀ ib' jb' ii jj, ib' < A.NB → jb' < A.NB → ii < A.bsize.get ib' →
        jj < A.bsize.get jb' →
        (if off A.bsize.get ib' + ii < off A.bsize.get (ib + 1) then
          diagSpec A.bsize.get big d.get a (off A.bsize.get ib' + ii) (off A.bsize.get jb' + jj)
          else a (off A.bsize.get ib' + ii) (off A.bsize.get jb' + jj)) =
        if ib' = ib ∧ jb' = ib ∧ ii = jj then g ii else
          (if off A.bsize.get ib' + ii < off A.bsize.get ib then
          diagSpec A.bsize.get big d.get a (off A.bsize.get ib' + ii) (off A.bsize.get jb' + jj)
          else a (off A.bsize.get ib' + ii) (off A.bsize.get jb' + jj)) := by
      intro ib' jb' ii jj h1 h2 h3 h4
      by_cases he : ib' = ib
      · subst he
        rw [if_pos (show off A.bsize.get ib' + ii < off A.bsize.get (ib' + 1) by
          rw [off_succ]; omega)]
        rw [if_neg (show ¬ off A.bsize.get ib' + ii < off A.bsize.get ib' by omega)]
        unfold diagSpec
        by_cases hd : jb' = ib' ∧ ii = jj
        · obtain ⟨rfl, rfl⟩ := hd
          rw [if_pos rfl, if_pos (show jb' = jb' ∧ jb' = jb' ∧ ii = ii from ⟨rfl, rfl, rfl⟩), hg]
          exact if_congr ((diag_iff h3).trans habove.symm) rfl rfl
        · rw [if_neg, if_neg]
          · rintro ⟨-, e1, e2⟩; exact hd ⟨e1, e2⟩
          · intro e
            obtain ⟨e1, e2⟩ := off_inj h3 h4 e
            exact hd ⟨e1.symm, e2⟩
      · rw [if_neg (show ¬ (ib' = ib ∧ jb' = ib ∧ ii = jj) from fun e => he e.1)]
        refine if_congr ?_ rfl rfl
        constructor
        · intro hlt
          rcases Nat.lt_or_ge ib' ib with hc | hc
          · exact off_lt hc h3
          · have := off_mono A.bsize.get (show ib + 1 ≤ ib' by omega)
            omega
        · intro hlt
          have := off_mono A.bsize.get (show ib ≤ ib + 1 by omega)
          omega
    have hag : A'.AgreeOff ib ib (fun i j => if i < off A.bsize.get ib then
        diagSpec A.bsize.get big d.get a i j else a i j) (fun i j =>
        if i < off A.bsize.get (ib + 1) then diagSpec A.bsize.get big d.get a i j else a i j) := by
      intro ib' jb' ii jj h1 h2 h3 h4 hne
      rw [s3] at h1 h2
      rw [s5] at h3 h4 ⊢
      beta_reduce
      rw [hstep ib' jb' ii jj h1 h2 h3 h4, if_neg (fun e => hne ⟨e.1, e.2.1⟩)]
    have fin : ∀ {A2 : EllB R} {L2 : Nat → BRow R}, Wrote A' A2 N ib ib L' L2 (fun i j =>
        if i < off A.bsize.get (ib + 1) then diagSpec A.bsize.get big d.get a i j else a i j) →
        off A.bsize.get ib + A.bsize.get ib = off A.bsize.get (ib + 1) ∧
        ∃ L', A2.Rows N L' (fun i j =>
        if i < off A.bsize.get (ib + 1) then diagSpec A.bsize.get big d.get a i j else a i j) ∧
        Same A A2 ∧ (A.Clean → A2.Clean) ∧ ∀ ib', ib + 1 ≤ ib' → L' ib' = L ib' := by
      intro A2 L2 hw
      refine ⟨(off_succ _ _).symm, L2, hw.rows, hs.trans hw.same, fun hc => hw.clean (hcl hc), ?_⟩
      intro ib' hib'
      rw [hw.other ib' (by omega), hL ib' (by omega)]
    by_cases hm : ib ∈ (L' ib).map Prod.fst
    · obtain ⟨⟨c, b⟩, hp, hce⟩ := List.mem_map.1 hm
      simp only at hce
      subst hce
      obtain ⟨k0, hk0⟩ := List.mem_iff_getElem?.1 hp
      have hsz := (hR.good c hi').size _ hp
      simp only [s5] at hsz
      obtain ⟨b', e', hb1, hb2⟩ := Res.wp_exists (wp_writeDiag (E := False) (n := A.bsize.get c)
        (b := b) hsz (f := fun ii => if above = true then d.read (off A.bsize.get c + ii) else .ok 0)
        (g := g) (by
          intro ii hii
          rw [hg]
          simp only
          split
          · exact hdi ii hii
          · rfl))
      have hwd : (if above = true then writeDiag (A.bsize.get c) b
            (fun ii => d.read (off A.bsize.get c + ii))
          else writeDiag (A.bsize.get c) b (fun _ => .ok 0)) = .ok b' := by
        rw [← e']
        split
        · rfl
        · rfl
      obtain ⟨hlt, -⟩ := List.getElem?_eq_some_iff.1 hk0
      have hw := hR.put hi' hk0 (b' := b') hb1 (a' := fun i j =>
        if i < off A.bsize.get (c + 1) then diagSpec A.bsize.get big d.get a i j else a i j) (by
          intro ii jj h1 h2
          rw [s5] at h1 h2 ⊢
          beta_reduce
          rw [hstep c c ii jj hi hi h1 h2, hb2 ii jj h1 h2]
          refine if_ctx_congr ?_ (fun _ => rfl) (fun _ => ?_)
          · simp
          · rw [← val_of_mem (hR.good c hi').nodup hp]
            have := hR.den c c ii jj hi' hi' (by rw [s5]; exact h1) (by rw [s5]; exact h2)
            rw [s5] at this
            exact this) hag
      rw [loop_hit (k0 := k0) (s' := (A'.withBlock (c * A'.MB + k0) b', true)) hlt]
      · rw [Res.bind_ok]
        simp only [if_true, pure_bind, Res.wp_pure]
        exact fin hw
      · intro jp hjp
        obtain ⟨⟨c', b2⟩, hx⟩ : ∃ x, (L' c)[jp]? = some x :=
          ⟨_, List.getElem?_eq_getElem (by omega)⟩
        simp only [ROWMAJOR]
        rw [hR.is.index_eq hi' hx, Res.bind_ok, if_neg]
        · rfl
        · rintro rfl
          have := slot_unique (hR.good c' hi').nodup hk0 hx
          omega
      · simp only [ROWMAJOR]
        rw [hR.is.index_eq hi' hk0, Res.bind_ok, if_pos rfl, hR.is.block_eq hi' hk0, Res.bind_ok,
          hab, Res.bind_ok]
        have hput := hR.is.putBlock_eq hi' hk0 b'
        split
        · next ha =>
          rw [if_pos ha] at hwd
          rw [hwd, Res.bind_ok, hput]
          rfl
        · next ha =>
          rw [if_neg ha] at hwd
          rw [hwd, Res.bind_ok, hput]
          rfl
      · intro jp hjp hjp'
        obtain ⟨⟨c', b2⟩, hx⟩ : ∃ x, (L' c)[jp]? = some x :=
          ⟨_, List.getElem?_eq_getElem (by omega)⟩
        simp only [ROWMAJOR]
        obtain ⟨-, -, f3, f4, -⟩ := withBlock_frame A' (c * A'.MB + k0) b'
        have hx' : (upd L' c ((L' c).set k0 (c, b')) c)[jp]? = some (c', b2) := by
          rw [upd_same, List.getElem?_set_ne (by omega), hx]
        have hix := hw.rows.is.index_eq (by rw [f3]; exact hi') hx'
        rw [hix, Res.bind_ok, if_neg]
        · rfl
        · rintro rfl
          have := slot_unique (hR.good c' hi').nodup hk0 hx
          omega
    · rw [loop_miss]
      · rw [Res.bind_ok]
        simp only [Bool.false_eq_true, if_false]
        rw [hab, Res.bind_ok]
        by_cases ha : above = true
        · rw [if_pos ha, hR.is.nnzb_eq hi', Res.bind_ok]
          simp only [ROWMAJOR]
          obtain ⟨b', e', hb1, hb2⟩ := Res.wp_exists (wp_writeDiag (E := False)
            (n := A.bsize.get ib) (b := (⟨A.bsize.get ib * A.bsize.get ib, fun _ => 0⟩ : Arr R)) le_rfl
            (f := fun ii => d.read (off A.bsize.get ib + ii)) (g := g) (by
              intro ii hii
              rw [hg, hdi ii hii]
              simp only
              rw [if_pos ha]))
          rw [e', Res.bind_ok]
          have hcap : (L' ib).length < A'.MB := by
            rcases hfit ib hi (habove.1 ha) with hf | hf
            · rw [h.has_iff hi, ← hL ib le_rfl] at hf
              exact absurd hf hm
            · rw [h.is.nz ib hi, ← hL ib le_rfl] at hf
              rw [s4]; exact hf
          have happ := hR.is.append_wp hi' hcap ib b'
          have hw := hR.add hi' hi' hm hcap (b := b') (by rw [s5]; exact hb1) (a' := fun i j =>
            if i < off A.bsize.get (ib + 1) then diagSpec A.bsize.get big d.get a i j else a i j) (by
              intro ii jj h1 h2
              rw [s5] at h1 h2 ⊢
              beta_reduce
              rw [hstep ib ib ii jj hi hi h1 h2, hb2 ii jj h1 h2]
              refine if_ctx_congr ?_ (fun _ => rfl) (fun _ => ?_)
              · simp
              · have := hR.den ib ib ii jj hi' hi' (by rw [s5]; exact h1) (by rw [s5]; exact h2)
                rw [s5, val_of_not_mem hm] at this
                exact this) hag
          have : ∀ {β : Type} (k : EllB R → Res β), (do
              let A ← (do
                let A1 ← A'.alloc (ib * A'.MB + (L' ib).length) b'
                let A2 ← A1.setIndex (ib * A'.MB + (L' ib).length) ib
                A2.setNnzb ib ((L' ib).length + 1))
              k A) = k (A'.app ib ib b') := by
            intro β k
            rw [happ, Res.bind_ok]
          simp only [bind_assoc] at this ⊢
          rw [this, Res.wp_pure]
          exact fin hw
        · rw [if_neg ha, pure_bind, Res.wp_pure]
          refine ⟨(off_succ _ _).symm, L', hR.congr ?_, hs, hcl, fun ib' hib' => hL ib' (by omega)⟩
          intro i j hi2 hj2
          obtain ⟨ib', ii, h1, h2, rfl⟩ := h.surj hi2
          obtain ⟨jb', jj, h3, h4, rfl⟩ := h.surj hj2
          beta_reduce
          rw [hstep ib' jb' ii jj h1 h3 h2 h4]
          by_cases he : ib' = ib ∧ jb' = ib ∧ ii = jj
          · rw [if_pos he]
            obtain ⟨rfl, rfl, rfl⟩ := he
            have hv := hR.den jb' jb' ii ii hi' hi' (by rw [s5]; exact h2) (by rw [s5]; exact h2)
            rw [s5, val_of_not_mem hm] at hv
            rw [hg]
            simp only
            rw [if_neg ha, hv]
          · rw [if_neg he]
      · intro jp hjp
        obtain ⟨⟨c', b2⟩, hx⟩ : ∃ x, (L' ib)[jp]? = some x :=
          ⟨_, List.getElem?_eq_getElem hjp⟩
        simp only [ROWMAJOR]
        rw [hR.is.index_eq hi' hx, Res.bind_ok, if_neg]
        · rfl
        · rintro rfl
          exact hm (List.mem_map.2 ⟨_, List.mem_of_getElem? hx, rfl⟩)
  · rintro ⟨A', o⟩ ⟨-, L', hR, hs, hcl, -⟩
    rw [Res.wp_pure]
    refine ⟨L', hR.congr ?_, hs, hcl⟩
    intro i j hi _
    beta_reduce
    rw [if_pos (by rw [h.N_eq]; exact hi)]

/-- `bml_set_block`: a stored block gets the given values, a missing one is an error. -/
theorem Rows.wp_setBlock (h : A.Rows N L a) {ib jb : Nat} (hi : ib < A.NB) (hj : jb < A.NB)
    {el : Arr R} (hel : A.bsize.get ib * A.bsize.get jb ≤ el.size) :
    (A.setBlock ib jb el).wp (¬ A.Has ib jb) (fun A' => A.Has ib jb ∧
      ∃ L' a', A'.Rows N L' a' ∧ Same A A' ∧ (A.Clean → A'.Clean) ∧ A.AgreeOff ib jb a a' ∧
      ∀ ii jj, ii < A.bsize.get ib → jj < A.bsize.get jb →
        a' (off A.bsize.get ib + ii) (off A.bsize.get jb + jj) =
          el.get (ii * A.bsize.get jb + jj)) := by
  unfold setBlock
  rw [if_neg (by omega), if_neg (by omega), h.is.nnzb_eq hi, Res.bind_ok]
  rcases h.is.findBlk_cases hi jb with ⟨e, hn⟩ | ⟨k, b, e, hs⟩
  · rw [e, Res.bind_ok]
    show ¬ _
    rw [h.has_iff hi]
    exact hn
  · rw [e, Res.bind_ok]
    simp only
    have hp := List.mem_of_getElem? hs
    have hsz : A.bsize.get ib * A.bsize.get jb ≤ b.size := (h.good ib hi).size _ hp
    rw [h.is.bsize_eq hi, Res.bind_ok, h.is.bsize_eq hj, Res.bind_ok, h.is.blockAssert_eq hi hs,
      Res.bind_ok]
    unfold copyTo
    rw [if_pos ⟨hel, by omega⟩, Res.bind_ok, h.is.putBlock_eq hi hs]
    set a' : Spec.Mat R := fun i j =>
      if off A.bsize.get ib ≤ i ∧ i < off A.bsize.get ib + A.bsize.get ib ∧
        off A.bsize.get jb ≤ j ∧ j < off A.bsize.get jb + A.bsize.get jb then
        el.get ((i - off A.bsize.get ib) * A.bsize.get jb + (j - off A.bsize.get jb)) else a i j
      with ha'
    have hin : ∀ ii jj, ii < A.bsize.get ib → jj < A.bsize.get jb →
        a' (off A.bsize.get ib + ii) (off A.bsize.get jb + jj) =
          el.get (ii * A.bsize.get jb + jj) := by
      intro ii jj h1 h2
      rw [ha']
      beta_reduce
      rw [if_pos ⟨by omega, by omega, by omega, by omega⟩, Nat.add_sub_cancel_left,
        Nat.add_sub_cancel_left]
    have hag : A.AgreeOff ib jb a a' := by
      intro ib' jb' ii jj h1 h2 h3 h4 hne
      rw [ha']
      beta_reduce
      rw [if_neg]
      rintro ⟨e1, e2, e3, e4⟩
      apply hne
      constructor
      · exact (off_inj (ii' := off A.bsize.get ib' + ii - off A.bsize.get ib) h3 (by omega)
          (by omega)).1
      · exact (off_inj (ii' := off A.bsize.get jb' + jj - off A.bsize.get jb) h4 (by omega)
          (by omega)).1
    have hw := h.put hi hs (b' := ⟨b.size, fun k => if k < A.bsize.get ib * A.bsize.get jb
        then el.get k else b.get k⟩) rfl (a' := a') (by
      intro ii jj h1 h2
      show (if _ then _ else _) = _
      rw [if_pos (addr_lt h1 h2), hin ii jj h1 h2]) hag
    exact ⟨(h.has_iff hi).2 (List.mem_map.2 ⟨_, hp, rfl⟩), _, a', hw.rows, hw.same, hw.clean, hag,
      hin⟩

end

end EllB

end Bml
