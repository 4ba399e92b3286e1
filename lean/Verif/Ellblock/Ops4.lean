import Verif.Ellblock.Ops3

/-!
# Block-ELLPACK: block sizes, constructors, clear, import, export
-/

set_option linter.unusedSectionVars false

namespace Bml

namespace EllB

variable {R : Type} {E : Prop}

/-- The block sizes the library has in effect describe `N × N` matrices: they are either not set
yet (then `bml_zero_matrix` chooses them from `N`), or were set to sizes that add up to `N`. -/
def Glob.For (g : Glob) (N M : Nat) : Prop :=
  (g = Glob.init ∧ 0 < M) ∨
  ∃ b, g.bsize = some b ∧ b.size = g.nb ∧ 0 < g.nb ∧ 0 < g.mb ∧
    (∀ ib, ib < g.nb → b.get ib < 1000000) ∧ ∑ ib ∈ Finset.range g.nb, b.get ib = N

/-- The block sizes are set to sizes that add up to `N`. -/
structure Glob.Set (g : Glob) (N : Nat) (b : Arr Nat) : Prop where
  bsize : g.bsize = some b
  size : b.size = g.nb
  nb : 0 < g.nb
  mb : 0 < g.mb
  small : ∀ ib, ib < g.nb → b.get ib < 1000000
  sum : off b.get g.nb = N

theorem wp_getBlockSizes {g : Glob} {N M : Nat} (h : g.For N M) (hM : M ≤ N) :
    ∃ g' b, getBlockSizes g N M = .ok (g', b) ∧ g'.Set N b := by
  unfold getBlockSizes
  rcases h with ⟨rfl, hM0⟩ | ⟨b, h1, h2, h3, h4, h5, h6⟩
  · simp only [Glob.init]
    rw [if_neg (by omega)]
    set nb := if N / 4 * 4 < N then N / 4 + 1 else N / 4 with hnb
    have hnb1 : 4 * (nb - 1) < N ∧ N ≤ 4 * nb ∧ 0 < nb := by
      rw [hnb]
      split <;> omega
    rw [if_neg (by omega)]
    refine ⟨_, _, rfl, rfl, rfl, hnb1.2.2, ?_, ?_, ?_⟩
    · simp only
      have hn := hnb1.2.2
      repeat' split
      all_goals omega
    · intro ib hib
      simp only
      split <;> omega
    · simp only
      obtain ⟨m, hm⟩ : ∃ m, nb = m + 1 := ⟨nb - 1, by omega⟩
      rw [hm, off_succ]
      have : off (fun ib => if ib = m + 1 - 1 then N - 4 * (m + 1 - 1) else 4) m = 4 * m := by
        unfold off
        rw [Finset.sum_congr rfl (g := fun _ => 4)]
        · simp; omega
        · intro k hk
          rw [Finset.mem_range] at hk
          beta_reduce
          rw [if_neg (by omega)]
      rw [this, if_pos (by omega)]
      omega
  · rw [h1]
    exact ⟨g, b, rfl, h1, h2, h3, h4, h5, h6⟩

theorem Glob.Set.for {g : Glob} {N : Nat} {b : Arr Nat} (h : g.Set N b) (M : Nat) : g.For N M :=
  Or.inr ⟨b, h.bsize, h.size, h.nb, h.mb, h.small, h.sum⟩

theorem wp_blockSum {NB : Nat} {bs : Arr Nat} (hs : NB ≤ bs.size)
    (hb : ∀ ib, ib < NB → bs.get ib < 1000000) :
    (loop NB 0 fun ib s => do
      let b ← bs.read ib
      if b < 1000000 then pure (s + b) else .error) = .ok (off bs.get NB) := by
  obtain ⟨r, e, hr⟩ := Res.wp_exists (wp_loop' (E := False) (n := NB) (s := 0)
    (f := fun ib s => do
      let b ← bs.read ib
      if b < 1000000 then pure (s + b) else .error) (Q := fun s => s = off bs.get NB)
    (fun n s => s = off bs.get n) rfl (by
      rintro k hk s rfl
      rw [Arr.read_ok (by omega), Res.bind_ok, if_pos (hb k hk), Res.wp_pure, off_succ])
    (fun _ h => h))
  rw [hr] at e
  exact e

theorem blockMatrix_eq {g : Glob} {NB MB M : Nat} {bs : Arr Nat} (hNB : 0 < NB) (hMB : 0 < MB)
    (hs : NB ≤ bs.size) (hb : ∀ ib, ib < NB → bs.get ib < 1000000) (hM : M ≤ off bs.get NB)
    (hg : g.mb ≠ 0) :
    blockMatrix (R := R) g NB MB M bs =
      .ok (g, empty (off bs.get NB) M NB MB ⟨NB, bs.get⟩) := by
  unfold blockMatrix
  rw [if_neg (by omega), if_neg (by omega), wp_blockSum hs hb, Res.bind_ok, if_neg (by omega)]
  unfold copyNew
  rw [if_pos hs, Res.bind_ok, if_neg hg, pure_bind]
  rfl

theorem Glob.Set.blockMatrix {g : Glob} {N M : Nat} {b : Arr Nat} (h : g.Set N b) (hM : M ≤ N) :
    EllB.blockMatrix (R := R) g g.nb g.mb M b = .ok (g, empty N M g.nb g.mb ⟨g.nb, b.get⟩) := by
  have := blockMatrix_eq (R := R) (g := g) (NB := g.nb) (MB := g.mb) (M := M) (bs := b) h.nb h.mb
    (by rw [h.size]) h.small (by rw [h.sum]; exact hM) (by have := h.mb; omega)
  rw [h.sum] at this
  exact this

theorem zeroMatrix_eq {g : Glob} {N M : Nat} (h : g.For N M) (hM : M ≤ N) :
    ∃ g' b, zeroMatrix (R := R) g N M = .ok (g', empty N M g'.nb g'.mb ⟨g'.nb, b.get⟩) ∧
      g'.Set N b ∧ getBlockSizes g N M = .ok (g', b) := by
  obtain ⟨g', b, e, hs⟩ := wp_getBlockSizes h hM
  refine ⟨g', b, ?_, hs, e⟩
  unfold zeroMatrix
  rw [if_neg (by omega), e, Res.bind_ok]
  exact hs.blockMatrix hM

section
variable [AddCommMonoid R] {A : EllB R} {L : Nat → BRow R} {N : Nat} {a : Spec.Mat R}

theorem empty_is {N M NB MB : Nat} {bs : Arr Nat} (hs : bs.size = NB) :
    (empty N M NB MB bs : EllB R).Is (fun _ => []) := by
  refine ⟨hs, rfl, rfl, rfl, fun _ _ => rfl, fun _ _ => by simp, ?_, ?_, fun _ _ => rfl⟩
  · intro ib jp jb b _ h; simp at h
  · intro ib jp ib' jp' _ h; simp at h

theorem empty_clean {N M NB MB : Nat} {bs : Arr Nat} : (empty N M NB MB bs : EllB R).Clean :=
  fun _ _ _ _ _ => rfl

theorem empty_rows {N M NB MB : Nat} {bs : Arr Nat} (hs : bs.size = NB) (hN : off bs.get NB = N) :
    (empty N M NB MB bs : EllB R).Rows N (fun _ => []) (fun _ _ => 0) := by
  refine ⟨empty_is hs, fun ib _ => ⟨by simp, by simp, by simp⟩, rfl, hN, ?_⟩
  intro ib jb ii jj _ _ _ _
  rw [val_nil]

theorem Glob.Set.empty_rows {g : Glob} {N : Nat} {b : Arr Nat} (h : g.Set N b) (M : Nat) :
    (empty N M g.nb g.mb ⟨g.nb, b.get⟩ : EllB R).Rows N (fun _ => []) (fun _ _ => 0) :=
  EllB.empty_rows rfl h.sum

theorem empty_slots {N M NB MB : Nat} {bs : Arr Nat} :
    (empty N M NB MB bs : EllB R).Slots (fun _ => none) :=
  ⟨fun _ _ _ => rfl, fun _ _ _ h => by simp at h, fun _ _ _ _ _ h => by simp [empty] at h,
    fun _ _ => rfl⟩

/-- Freeing one block. -/
theorem Slots.freeAt_some {T : Nat → Option (Arr R)} (h : A.Slots T) {ind : Nat}
    (hi : ind < A.ptr.size) {b : Arr R} (hb : T ind = some b) :
    ∃ x, A.ptr.get ind = some x ∧ A.freeAt ind = .ok { A with heap := upd A.heap x none } := by
  obtain ⟨x, h1, h2⟩ := h.live ind b hi hb
  refine ⟨x, h1, ?_⟩
  unfold freeAt
  rw [Arr.read_ok hi, Res.bind_ok, h1]
  simp only [h2]

/-- `bml_clear`: no block is left; the pointer cells are as before. -/
theorem Is.wp_clear (h : A.Is L) :
    (A.clear).wp E (fun A' => A'.Is (fun _ => []) ∧ Same A A' ∧ A'.ptr = A.ptr ∧
      A'.indexb = A.indexb) := by
  unfold clear
  simp only [Res.wp_bind, Res.wp_pure]
  refine wp_loop' (fun n (A' : EllB R) => ∃ H, A' = { A with heap := H } ∧
      (∀ ib jp jb b, n ≤ ib → ib < A.NB → (L ib)[jp]? = some (jb, b) →
        ∃ x, A.ptr.get (ib * A.MB + jp) = some x ∧ H x = some b) ∧
      ∀ x, A.next ≤ x → H x = none)
    ⟨A.heap, rfl, fun ib jp jb b _ hib hs => (h.slot ib jp jb b hib hs).2, h.fresh⟩ ?_ ?_
  · rintro ib hib A' ⟨H, rfl, hH, hf⟩
    have e1 : A.nnzb.read ib = .ok (L ib).length := h.nnzb_eq hib
    rw [show ({ A with heap := H } : EllB R).nnzb = A.nnzb from rfl, e1, Res.bind_ok]
    refine wp_loop' (fun n (A' : EllB R) => ∃ H, A' = { A with heap := H } ∧
      (∀ ib' jp jb b, (ib < ib' ∨ (ib' = ib ∧ n ≤ jp)) → ib' < A.NB → (L ib')[jp]? = some (jb, b) →
        ∃ x, A.ptr.get (ib' * A.MB + jp) = some x ∧ H x = some b) ∧
      ∀ x, A.next ≤ x → H x = none)
      ⟨H, rfl, fun ib' jp jb b ho hib' hs => hH ib' jp jb b (by omega) hib' hs, hf⟩ ?_ ?_
    · rintro jp hjp A2 ⟨H2, rfl, hH2, hf2⟩
      obtain ⟨⟨jb, b⟩, hx⟩ : ∃ x, (L ib)[jp]? = some x := ⟨_, List.getElem?_eq_getElem hjp⟩
      obtain ⟨x, h1, h2⟩ := hH2 ib jp jb b (by omega) hib hx
      have hlt := h.addr hib (h.lt_of_slot hib hx)
      have : ({ A with heap := H2 } : EllB R).freeAt (ROWMAJOR ib jp A.NB A.MB) =
          .ok { A with heap := upd H2 x none } := by
        unfold freeAt
        simp only [ROWMAJOR]
        rw [Arr.read_ok hlt, Res.bind_ok, h1]
        simp only [h2]
      rw [this]
      refine ⟨_, rfl, ?_, ?_⟩
      · intro ib' jp' jb' b' ho hib' hs'
        obtain ⟨x', h1', h2'⟩ := hH2 ib' jp' jb' b' (by omega) hib' hs'
        refine ⟨x', h1', ?_⟩
        rw [upd_ne]
        · exact h2'
        · rintro rfl
          obtain ⟨hl, -⟩ := List.getElem?_eq_some_iff.1 hs'
          have := h.own ib' jp' ib jp hib' hl hib hjp (h1'.trans h1.symm)
          omega
      · intro y hy
        by_cases he : y = x
        · subst he; rw [upd_same]
        · rw [upd_ne _ _ he]; exact hf2 y hy
    · rintro A2 ⟨H2, rfl, hH2, hf2⟩
      exact ⟨H2, rfl, fun ib' jp jb b ho hib' hs => hH2 ib' jp jb b (by omega) hib' hs, hf2⟩
  · rintro A' ⟨H, rfl, -, hf⟩
    refine ⟨⟨h.bs_size, h.nz_size, h.ix_size, h.ptr_size, ?_, fun _ _ => by simp, ?_, ?_, hf⟩,
      ⟨rfl, rfl, rfl, rfl, rfl⟩, rfl, rfl⟩
    · intro ib hib
      show (if ib < A.NB then 0 else A.nnzb.get ib) = 0
      rw [if_pos hib]
    · intro ib jp jb b _ hs; simp at hs
    · intro ib jp ib' jp' _ hs; simp at hs

theorem rows_zero {A' : EllB R} (h : A.Rows N L a) (hs : Same A A') (hI : A'.Is (fun _ => [])) :
    A'.Rows N (fun _ => []) (fun _ _ => 0) := by
  refine ⟨hI, fun ib _ => ⟨by simp, by simp, by simp⟩, hs.N.trans h.dim, by
    rw [hs.bsize, hs.NB]; exact h.N_eq, ?_⟩
  intro ib jb ii jj _ _ _ _
  rw [val_nil]

/-- After `bml_clear`, a row that held blocks cannot be written: the first pointer cell of the row
is not NULL. -/
theorem Rows.clear_setElement (h : A.Rows N L a) {ib jb ii jj : Nat} (hi : ib < A.NB)
    (hj : jb < A.NB) (hii : ii < A.bsize.get ib) (hjj : jj < A.bsize.get jb)
    (hne : L ib ≠ []) (v : R) :
    (A.clear >>= fun A' => A'.setElement (off A.bsize.get ib + ii) (off A.bsize.get jb + jj) v) =
      .error := by
  obtain ⟨A', e, hI, hs, hp, -⟩ := Res.wp_exists (h.is.wp_clear (E := False))
  rw [e, Res.bind_ok]
  have hR := rows_zero h hs hI
  have hi' : ib < A'.NB := by rw [hs.NB]; exact hi
  have hj' : jb < A'.NB := by rw [hs.NB]; exact hj
  have f1 := hR.find_eq hi' (ii := ii) (by rw [hs.bsize]; exact hii)
  have f2 := hR.find_eq hj' (ii := jj) (by rw [hs.bsize]; exact hjj)
  rw [hs.bsize] at f1 f2
  unfold setElement
  rw [f1, Res.bind_ok]
  simp only
  rw [f2, Res.bind_ok]
  simp only
  rw [hI.bsize_eq hi', Res.bind_ok, hI.bsize_eq hj', Res.bind_ok, hI.writeMatching_none hi' (by simp),
    Res.bind_ok]
  simp only [Bool.false_eq_true, if_false]
  rw [hI.nnzb_eq hi', Res.bind_ok]
  obtain ⟨⟨c, b⟩, hx⟩ : ∃ x, (L ib)[0]? = some x := by
    cases hl : L ib with
    | nil => exact absurd hl hne
    | cons x l => exact ⟨x, rfl⟩
  have hMB := h.is.lt_of_slot hi hx
  rw [if_neg (by rw [hs.MB]; simp; omega)]
  obtain ⟨-, x, h1, -⟩ := h.is.slot ib 0 c b hi hx
  have hptr : A'.ptr.read (ROWMAJOR ib ([] : BRow R).length A'.NB A'.MB) = .ok (some x) := by
    simp only [ROWMAJOR, List.length_nil]
    rw [hs.MB, hp, Arr.read_ok (h.is.addr hi hMB), h1]
  rw [hptr, Res.bind_ok]

end

section
variable [CommRing R] {A : EllB R} {L : Nat → BRow R} {N : Nat} {a : Spec.Mat R}

/-- `bml_identity_matrix`. -/
theorem wp_identityMatrix {g : Glob} {N M : Nat} (h : g.For N M) (hM : M ≤ N) :
    (identityMatrix (R := R) g N M).wp E (fun r => ∃ L b, getBlockSizes g N M = .ok (r.1, b) ∧ r.1.Set N b ∧
      r.2.Rows N L Spec.one ∧ r.2.Clean ∧ Same (empty N M r.1.nb r.1.mb ⟨r.1.nb, b.get⟩ : EllB R) r.2) := by
  obtain ⟨g', b, e, hs⟩ := wp_getBlockSizes h hM
  unfold identityMatrix
  rw [e, Res.bind_ok]
  simp only
  rw [hs.blockMatrix hM, Res.bind_ok]
  simp only [Res.wp_bind, Res.wp_pure]
  have hsum : off b.get g'.nb = N := hs.sum
  refine wp_loop' (n := g'.nb) (fun n (A' : EllB R) => ∃ L, A'.Rows N L
      (fun i j => if i < off b.get n then Spec.one i j else 0) ∧ A'.Clean ∧
      Same (empty N M g'.nb g'.mb ⟨g'.nb, b.get⟩ : EllB R) A' ∧ ∀ ib, n ≤ ib → L ib = [])
    ⟨fun _ => [], (hs.empty_rows M).congr ?_, empty_clean, Same.refl _, fun _ _ => rfl⟩ ?_ ?_
  · intro i j _ _
    beta_reduce
    rw [if_neg (by rw [off_zero]; omega)]
  · rintro ib hib A' ⟨L, hR, hc, hsame, hL⟩
    have e3 : A'.NB = g'.nb := hsame.NB
    have e4 : A'.MB = g'.mb := hsame.MB
    have e5 : A'.bsize = ⟨g'.nb, b.get⟩ := hsame.bsize
    have hib' : ib < A'.NB := by rw [e3]; exact hib
    rw [Arr.read_ok (by rw [hs.size]; exact hib), Res.bind_ok]
    obtain ⟨c, ec, hc1, hc2⟩ := Res.wp_exists (wp_writeDiag (E := False) (n := b.get ib)
      (b := (⟨b.get ib * b.get ib, fun _ => 0⟩ : Arr R)) le_rfl (f := fun _ => .ok 1)
      (g := fun _ => 1) (fun _ _ => rfl))
    rw [ec, Res.bind_ok]
    have hl := hL ib le_rfl
    have happ := hR.is.append_eq' hib' (by rw [hl, e4]; exact hs.mb) ib c
    rw [hl] at happ
    simp only [ROWMAJOR]
    simp only [List.length_nil, Nat.zero_add] at happ
    have h' : (do
        let A1 ← A'.alloc (ib * A'.MB + 0) c
        let A2 ← A1.setNnzb ib 1
        A2.setIndex (ib * A'.MB + 0) ib) = .ok (A'.app ib ib c) := happ
    rw [h']
    have hw := hR.add (jb := ib) (b := c) hib' hib' (by rw [hl]; simp)
      (by rw [hl, e4]; exact hs.mb) (by rw [hc1, e5])
      (a' := fun i j => if i < off b.get (ib + 1) then Spec.one i j else 0) (by
        intro ii jj h1 h2
        rw [e5] at h1 h2 ⊢
        simp only at h1 h2 ⊢
        rw [hc2 ii jj h1 h2, if_pos (show off b.get ib + ii < off b.get (ib + 1) by
          rw [off_succ]; omega)]
        unfold Spec.one
        refine if_congr ?_ rfl rfl
        constructor
        · rintro rfl; rfl
        · intro e; omega) (by
        intro ib' jb' ii jj h1 h2 h3 h4 hne
        rw [e5] at h3 h4 ⊢
        simp only at h3 h4 ⊢
        by_cases he : ib' = ib
        · subst he
          rw [if_pos (by rw [off_succ]; omega), if_neg (by omega)]
          unfold Spec.one
          rw [if_neg]
          intro e
          exact hne ⟨rfl, (off_inj h3 h4 e).1.symm⟩
        · refine if_congr ?_ rfl rfl
          constructor
          · intro hlt
            rcases Nat.lt_or_ge ib' ib with hc | hc
            · exact off_lt hc h3
            · have := off_mono b.get (show ib + 1 ≤ ib' by omega)
              omega
          · intro hlt
            have := off_mono b.get (show ib ≤ ib + 1 by omega)
            omega)
    refine ⟨_, hw.rows, hw.clean hc, hsame.trans hw.same, ?_⟩
    intro ib' h1
    rw [hw.other ib' (by omega)]
    exact hL ib' (by omega)
  · rintro A' ⟨L, hR, hc, hsame, -⟩
    refine ⟨L, b, rfl, hs, hR.congr ?_, hc, hsame⟩
    intro i j hi _
    beta_reduce
    rw [if_pos (by rw [hsum]; exact hi)]

/-- The band of `bml_banded_matrix`. -/
def bandSpec (N M : Nat) (rnd : Nat → Nat → R) : Spec.Mat R :=
  fun i j => if i - M / 2 ≤ j ∧ j < (if i + M ≤ N + M / 2 then i + M - M / 2 else N) then rnd i j
    else 0

/-- `bml_banded_matrix`: the band is filled, or the call fails because a block row is full. -/
theorem wp_bandedMatrix {g : Glob} {N M : Nat} (h : g.For N M) (hM : M ≤ N)
    (rnd : Nat → Nat → R) :
    ∃ g' b, getBlockSizes g N M = .ok (g', b) ∧ (bandedMatrix g N M rnd).wp (g'.mb < g'.nb)
      (fun r => r.1 = g' ∧ ∃ L, r.2.Rows N L (bandSpec N M rnd) ∧ r.2.Clean ∧
        Same (empty N M g'.nb g'.mb ⟨g'.nb, b.get⟩ : EllB R) r.2) := by
  obtain ⟨g', b, e, hs, e'⟩ := zeroMatrix_eq (R := R) h hM
  refine ⟨g', b, e', ?_⟩
  unfold bandedMatrix
  rw [e, Res.bind_ok]
  simp only [Res.wp_bind, Res.wp_pure]
  refine wp_loop' (fun n (A' : EllB R) => ∃ L, A'.Rows N L
      (fun i j => if i < n then bandSpec N M rnd i j else 0) ∧ A'.Clean ∧
      Same (empty N M g'.nb g'.mb ⟨g'.nb, b.get⟩ : EllB R) A')
    ⟨fun _ => [], (hs.empty_rows M).congr ?_, empty_clean, Same.refl _⟩ ?_ ?_
  · intro i j _ _
    beta_reduce
    rw [if_neg (by omega)]
  · rintro i hi A' ⟨L, hR, hc, hsame⟩
    have hhi : (if i + M ≤ N + M / 2 then i + M - M / 2 else N) ≤ N := by split <;> omega
    have hlo : i - M / 2 ≤ (if i + M ≤ N + M / 2 then i + M - M / 2 else N) := by split <;> omega
    generalize hh : (if i + M ≤ N + M / 2 then i + M - M / 2 else N) = hib at *
    refine wp_loopFrom (fun n (A' : EllB R) => ∃ L, A'.Rows N L
      (fun i' j => if i' < i then bandSpec N M rnd i' j else
        if i' = i ∧ i - M / 2 ≤ j ∧ j < n then rnd i j else 0) ∧ A'.Clean ∧
      Same (empty N M g'.nb g'.mb ⟨g'.nb, b.get⟩ : EllB R) A') hlo
      ⟨L, hR.congr ?_, hc, hsame⟩ ?_ ?_
    · intro i' j _ _
      beta_reduce
      rw [if_neg (show ¬ (i' = i ∧ i - M / 2 ≤ j ∧ j < i - M / 2) by omega)]
    · rintro j hj1 hj2 A2 ⟨L2, hR2, hc2, hs2⟩
      have hjN : j < N := by omega
      obtain ⟨ib, ii, h1, h2, rfl⟩ := hR2.surj hi
      obtain ⟨jb, jj, h3, h4, rfl⟩ := hR2.surj hjN
      refine Res.wp_mono' (hR2.wp_setElement h1 h3 h2 h4 _) ?_ ?_
      · rintro ⟨hn, hful⟩
        have hfull := hful.resolve_right (not_not.2 hc2)
        have e3 : A2.NB = g'.nb := hs2.NB
        have e4 : A2.MB = g'.mb := hs2.MB
        have := length_lt_of_subset (hR2.good ib h1).nodup (S := Finset.range A2.NB) (by
          intro c hc
          obtain ⟨p, hp, rfl⟩ := List.mem_map.1 hc
          exact Finset.mem_range.2 ((hR2.good ib h1).lt p hp)) hn (Finset.mem_range.2 h3)
        rw [List.length_map, Finset.card_range] at this
        omega
      · rintro A3 ⟨L3, hw⟩
        refine ⟨L3, hw.rows.congr ?_, hw.clean hc2, hs2.trans hw.same⟩
        intro i' j' _ _
        unfold Spec.set
        by_cases he : i' = off A2.bsize.get ib + ii ∧ j' = off A2.bsize.get jb + jj
        · obtain ⟨rfl, rfl⟩ := he
          beta_reduce
          rw [if_pos ⟨rfl, rfl⟩, if_neg (by omega), if_pos ⟨rfl, hj1, by omega⟩]
        · rw [if_neg he]
          refine if_congr Iff.rfl rfl (if_congr ?_ rfl rfl)
          constructor
          · rintro ⟨q1, q2, q3⟩; exact ⟨q1, q2, by omega⟩
          · rintro ⟨q1, q2, q3⟩
            refine ⟨q1, q2, ?_⟩
            have : j' ≠ off A2.bsize.get jb + jj := fun e => he ⟨q1, e⟩
            omega
    · rintro A2 ⟨L2, hR2, hc2, hs2⟩
      refine ⟨L2, hR2.congr ?_, hc2, hs2⟩
      intro i' j _ _
      beta_reduce
      by_cases he : i' < i
      · rw [if_pos he, if_pos (by omega)]
      · rw [if_neg he]
        by_cases he' : i' = i
        · subst he'
          rw [if_pos (show i' < i' + 1 by omega)]
          unfold bandSpec
          rw [hh]
          exact if_congr ⟨fun e => e.2, fun e => ⟨rfl, e⟩⟩ rfl rfl
        · rw [if_neg (fun e => he' e.1), if_neg (by omega)]
  · rintro A' ⟨L, hR, hc, hsame⟩
    refine ⟨trivial, L, hR.congr ?_, hc, hsame⟩
    intro i j hi _
    beta_reduce
    rw [if_pos hi]

end

end EllB

end Bml
