import Verif.Ellblock.Ops4

/-!
# Block-ELLPACK: the random constructor
-/

namespace Bml

namespace EllB

variable {R : Type} {E : Prop}

/-- State of `bml_random_matrix_ellblock`: the matrix, `bcol_marker` (`true` for 1, `false` for -1),
`bcol_marker_pos`, and the number of calls of `rand()` so far. -/
structure RandB (R : Type) where
  A : EllB R
  marker : Arr Bool
  pos : Arr Nat
  calls : Nat

/-- Lines 364-371: a block of `bi` times `bj` drawn values; `rnd n` is the `n`-th result of `rand()`, `toR` the
division by `RAND_MAX`. -/
def randomBlock [Zero R] (rnd : Nat → Nat) (toR : Nat → R) (bi bj calls : Nat) : Res (Arr R × Nat) :=
  loop2 bi bj ((⟨bi * bj, fun _ => 0⟩ : Arr R), calls) fun ii jj s => do
    let b ← s.1.write (ROWMAJOR ii jj bi bj) (toR (rnd s.2))
    pure (b, s.2 + 1)

/-- Lines 350-380 (`bml_allocate_ellblock_typed.c`): one turn of the loop over `jb`; the state carries `bcol`
and `bnnz_row`.  Simplifications: the block is filled before it is allocated, and `nnzb[ib]` is set after
every block, not once after the loop; nothing reads it in between. -/
def randomBlkStep [Zero R] (bs : Arr Nat) (rnd : Nat → Nat) (toR : Nat → R) (ib : Nat)
    (st : RandB R × Nat × Nat) : Res (RandB R × Nat × Nat) := do
  let (s, bcol, n) := st
  let m ← s.marker.read bcol
  let (s, n) ← (if m = false then do
      let bi ← bs.read ib
      let bj ← bs.read bcol
      let (b, calls) ← randomBlock rnd toR bi bj s.calls
      let A ← s.A.alloc (ROWMAJOR ib n s.A.NB s.A.MB) b
      let A ← A.setNnzb ib (n + 1)
      let A ← A.setIndex (ROWMAJOR ib n s.A.NB s.A.MB) bcol
      let pos ← s.pos.write n bcol
      let marker ← s.marker.write bcol true
      pure (⟨A, marker, pos, calls⟩, n + 1)
    else pure (s, n))
  pure ({ s with calls := s.calls + 1 }, rnd s.calls % s.A.NB, n)

/-- Lines 346-387: block row `ib`. -/
def randomBlkRow [Zero R] (bs : Arr Nat) (rnd : Nat → Nat) (toR : Nat → R) (ib : Nat) (s : RandB R) :
    Res (RandB R) := do
  let (s, _, n) ← loop s.A.MB (s, ib, 0) fun _ st => randomBlkStep bs rnd toR ib st
  let marker ← loop n s.marker fun j marker => do
    let c ← s.pos.read j
    marker.write c false
  pure { s with marker := marker }

/-- `bml_random_matrix_ellblock` (`bml_allocate_ellblock_typed.c` 315-393). -/
def randomMatrix [Zero R] (g : Glob) (N M : Nat) (rnd : Nat → Nat) (toR : Nat → R) : Res (Glob × EllB R) := do
  let (g, bs) ← getBlockSizes g N M
  let (g, A) ← blockMatrix (R := R) g g.nb g.mb M bs
  let s ← loop A.NB (⟨A, ⟨A.NB, fun _ => false⟩, ⟨A.MB, fun _ => 0⟩, 0⟩ : RandB R)
    fun ib s => randomBlkRow bs rnd toR ib s
  pure (g, s.A)

/-! ## Proof -/

theorem bind_ok_inv {α β : Type} {x : Res α} {f : α → Res β} {b : β} (h : (x >>= f) = .ok b) :
    ∃ a, x = .ok a ∧ f a = .ok b := by
  cases x with
  | ok a => exact ⟨a, rfl, h⟩
  | error => cases h
  | ub => cases h

/-- A drawn value. -/
def Drawn (rnd : Nat → Nat) (toR : Nat → R) (x : R) : Prop := ∃ n, x = toR (rnd n)

theorem wp_randomBlock [Zero R] (rnd : Nat → Nat) (toR : Nat → R) (bi bj calls : Nat) :
    (randomBlock rnd toR bi bj calls).wp E fun r => r.1.size = bi * bj ∧
      ∀ ii jj, ii < bi → jj < bj → Drawn rnd toR (r.1.get (ii * bj + jj)) := by
  unfold randomBlock
  refine wp_loop2 (fun n m (s : Arr R × Nat) => s.1.size = bi * bj ∧ ∀ ii jj, ii < bi → jj < bj →
    (ii < n ∨ (ii = n ∧ jj < m)) → Drawn rnd toR (s.1.get (ii * bj + jj))) ⟨rfl, ?_⟩ ?_ ?_ ?_
  · intro ii jj _ _ h; omega
  · rintro n m hn hm ⟨b, c⟩ ⟨h1, h2⟩
    simp only at h1 h2
    have hlt : n * bj + m < bi * bj := by
      have := Nat.mul_le_mul_right bj (show n + 1 ≤ bi from hn)
      rw [Nat.add_mul, Nat.one_mul] at this
      omega
    simp only [ROWMAJOR]
    rw [Arr.write_ok _ (by rw [h1]; exact hlt), Res.bind_ok, Res.wp_pure]
    refine ⟨h1, fun ii jj hi hj h => ?_⟩
    simp only
    by_cases he : ii * bj + jj = n * bj + m
    · rw [he, upd_same]; exact ⟨_, rfl⟩
    · rw [upd_ne _ _ he]
      refine h2 ii jj hi hj ?_
      rcases h with h | ⟨rfl, h⟩
      · exact Or.inl h
      · rcases Nat.lt_or_ge jj m with h' | h'
        · exact Or.inr ⟨rfl, h'⟩
        · exact absurd (by rw [show jj = m by omega]) he
  · rintro n s hn ⟨h1, h2⟩
    refine ⟨h1, fun ii jj hi hj h => h2 ii jj hi hj ?_⟩
    omega
  · rintro s ⟨h1, h2⟩
    exact ⟨h1, fun ii jj hi hj => h2 ii jj hi hj (Or.inl hi)⟩

section
variable [CommRing R]

/-- The matrix with block `(ib, jb)` replaced by `b`. -/
def putAt (bs : Nat → Nat) (a : Spec.Mat R) (ib jb : Nat) (b : Nat → R) : Spec.Mat R := fun i j =>
  if (off bs ib ≤ i ∧ i < off bs (ib + 1)) ∧ off bs jb ≤ j ∧ j < off bs (jb + 1) then
    b ((i - off bs ib) * bs jb + (j - off bs jb))
  else a i j

theorem in_block {bs : Nat → Nat} {ib ib' ii : Nat} (hi : ii < bs ib') (h1 : off bs ib ≤ off bs ib' + ii)
    (h2 : off bs ib' + ii < off bs (ib + 1)) : ib' = ib := by
  rcases Nat.lt_trichotomy ib' ib with h | h | h
  · have := off_lt h hi; omega
  · exact h
  · have := off_mono bs (show ib + 1 ≤ ib' from h); omega

omit [CommRing R] in
theorem putAt_same (bs : Nat → Nat) (a : Spec.Mat R) {ib jb ii jj : Nat} (b : Nat → R) (hi : ii < bs ib)
    (hj : jj < bs jb) : putAt bs a ib jb b (off bs ib + ii) (off bs jb + jj) = b (ii * bs jb + jj) := by
  unfold putAt
  rw [if_pos (by rw [off_succ, off_succ]; omega)]
  simp

omit [CommRing R] in
theorem putAt_other (bs : Nat → Nat) (a : Spec.Mat R) {ib jb ib' jb' ii jj : Nat} (b : Nat → R)
    (hi : ii < bs ib') (hj : jj < bs jb') (h : ¬ (ib' = ib ∧ jb' = jb)) :
    putAt bs a ib jb b (off bs ib' + ii) (off bs jb' + jj) = a (off bs ib' + ii) (off bs jb' + jj) := by
  unfold putAt
  rw [if_neg]
  rintro ⟨⟨h1, h2⟩, h3, h4⟩
  exact h ⟨in_block hi h1 h2, in_block hj h3 h4⟩

/-- The elements of stored blocks are drawn values. -/
def AllDrawn (A : EllB R) (L : Nat → BRow R) (a : Spec.Mat R) (rnd : Nat → Nat) (toR : Nat → R) : Prop :=
  ∀ ib jb ii jj, ib < A.NB → jb ∈ (L ib).map Prod.fst → ii < A.bsize.get ib → jj < A.bsize.get jb →
    Drawn rnd toR (a (off A.bsize.get ib + ii) (off A.bsize.get jb + jj))

/-- Invariant inside block row `ib`; `A0` is the empty matrix. -/
structure RandBInv (rnd : Nat → Nat) (toR : Nat → R) (A0 : EllB R) (N ib : Nat) (s : RandB R) (n : Nat)
    (L : Nat → BRow R) (a : Spec.Mat R) : Prop where
  rows : s.A.Rows N L a
  clean : s.A.Clean
  same : Same A0 s.A
  drawn : AllDrawn s.A L a rnd toR
  len : (L ib).length = n
  msize : s.marker.size = A0.NB
  psize : s.pos.size = A0.MB
  mark : ∀ c, c < A0.NB → (s.marker.get c = true ↔ c ∈ (L ib).map Prod.fst)
  pos : ∀ k, k < n → ((L ib).map Prod.fst)[k]? = some (s.pos.get k)
  diag : ∀ i, i < ib → i ∈ (L i).map Prod.fst
  empty : ∀ i, ib < i → L i = []

theorem wp_randomBlkStep {A0 : EllB R} {bs : Arr Nat} {N ib : Nat} (rnd : Nat → Nat) (toR : Nat → R)
    {s : RandB R} {col nz n : Nat} {L : Nat → BRow R} {a : Spec.Mat R} (hn : n < A0.MB) (hnz : nz ≤ n)
    (hib : ib < A0.NB) (hcol : col < A0.NB) (hbs : bs.size = A0.NB) (hbg : bs.get = A0.bsize.get)
    (h : RandBInv rnd toR A0 N ib s nz L a) :
    (randomBlkStep bs rnd toR ib (s, col, nz)).wp E fun st => ∃ L' a', RandBInv rnd toR A0 N ib st.1 st.2.2 L' a' ∧
      st.2.1 < A0.NB ∧ st.2.2 ≤ n + 1 ∧
      ∀ c, c ∈ (L ib).map Prod.fst ∨ c = col → c ∈ (L' ib).map Prod.fst := by
  have e3 : s.A.NB = A0.NB := h.same.NB
  have e4 : s.A.MB = A0.MB := h.same.MB
  have e5 : s.A.bsize = A0.bsize := h.same.bsize
  unfold randomBlkStep
  simp only
  rw [Arr.read_ok (by rw [h.msize]; exact hcol), Res.bind_ok]
  by_cases hm : s.marker.get col = false
  · rw [if_pos hm, Arr.read_ok (by rw [hbs]; exact hib), Res.bind_ok, Arr.read_ok (by rw [hbs]; exact hcol),
      Res.bind_ok]
    have hnot : col ∉ (L ib).map Prod.fst := by
      rw [← h.mark col hcol, hm]; simp
    obtain ⟨⟨b, calls⟩, eb, hb1, hb2⟩ := Res.wp_exists (wp_randomBlock (E := False) rnd toR (bs.get ib)
      (bs.get col) s.calls)
    rw [eb, Res.bind_ok]
    simp only at hb1 hb2 ⊢
    have hib' : ib < s.A.NB := by rw [e3]; exact hib
    have hcol' : col < s.A.NB := by rw [e3]; exact hcol
    have hcap : (L ib).length < s.A.MB := by rw [h.len, e4]; omega
    have happ := h.rows.is.append_eq' hib' hcap col b
    rw [h.len] at happ
    have hbs' : bs.get = s.A.bsize.get := by rw [hbg, e5]
    rw [hbs'] at hb1 hb2
    have hw := h.rows.add (jb := col) (b := b) hib' hcol' hnot hcap hb1
      (a' := putAt s.A.bsize.get a ib col b.get)
      (fun ii jj h1 h2 => (putAt_same _ _ _ h1 h2).symm)
      (fun ib' jb' ii jj _ _ h1 h2 hne => putAt_other _ _ _ h1 h2 hne)
    obtain ⟨A1, ea, h1'⟩ := bind_ok_inv happ
    obtain ⟨A2, eb', h2'⟩ := bind_ok_inv h1'
    simp only [ROWMAJOR]
    rw [ea, Res.bind_ok, eb', Res.bind_ok, h2', Res.bind_ok,
      Arr.write_ok _ (by rw [h.psize]; omega), Res.bind_ok, Arr.write_ok _ (by rw [h.msize]; exact hcol)]
    simp only [Res.pure_eq, Res.bind_ok, Res.wp_ok]
    have hcols : ∀ c, c ∈ ((upd L ib (L ib ++ [(col, b)])) ib).map Prod.fst ↔
        c ∈ (L ib).map Prod.fst ∨ c = col := by
      intro c; rw [upd_same]; simp
    refine ⟨_, _, ⟨hw.rows, hw.clean h.clean, h.same.trans hw.same, ?_, ?_, h.msize, h.psize, ?_, ?_, ?_, ?_⟩,
      ?_, by omega, fun c hc => (hcols c).2 hc⟩
    · intro ib' jb' ii jj k1 k2 k3 k4
      have e6 : (s.A.app ib col b).bsize = s.A.bsize := hw.same.bsize
      have e7 : (s.A.app ib col b).NB = s.A.NB := hw.same.NB
      rw [e7] at k1
      rw [e6] at k3 k4 ⊢
      by_cases he : ib' = ib ∧ jb' = col
      · obtain ⟨rfl, rfl⟩ := he
        rw [putAt_same _ _ _ k3 k4]
        exact hb2 ii jj k3 k4
      · rw [putAt_other _ _ _ k3 k4 he]
        refine h.drawn ib' jb' ii jj k1 ?_ k3 k4
        by_cases hb : ib' = ib
        · subst hb
          rcases (hcols jb').1 k2 with k | k
          · exact k
          · exact absurd ⟨rfl, k⟩ he
        · rwa [upd_ne _ _ hb] at k2
    · rw [upd_same]; simp [h.len]
    · intro c hc
      rw [hcols]
      by_cases he : c = col
      · subst he; simp
      · simp only [upd_ne _ _ he]
        rw [h.mark c hc]; simp [he]
    · intro k hk
      rw [upd_same]
      have hl : ((L ib).map Prod.fst).length = nz := by rw [List.length_map, h.len]
      rw [List.map_append]
      by_cases he : k = nz
      · subst he
        rw [List.getElem?_append_right (by omega), hl]
        simp
      · rw [List.getElem?_append_left (by omega)]
        show _ = some (upd s.pos.get nz col k)
        rw [upd_ne _ _ he]
        exact h.pos k (by omega)
    · intro i hi
      rw [upd_ne _ _ (by omega)]; exact h.diag i hi
    · intro i hi
      rw [upd_ne _ _ (by omega)]; exact h.empty i hi
    · have e7 : (s.A.app ib col b).NB = s.A.NB := hw.same.NB
      rw [e7, e3]; exact Nat.mod_lt _ (by omega)
  · rw [if_neg hm]
    simp only [Res.pure_eq, Res.bind_ok, Res.wp_ok]
    refine ⟨L, a, ⟨h.rows, h.clean, h.same, h.drawn, h.len, h.msize, h.psize, h.mark, h.pos, h.diag, h.empty⟩,
      ?_, by omega, ?_⟩
    · rw [e3]; exact Nat.mod_lt _ (by omega)
    · rintro c (hc | rfl)
      · exact hc
      · exact (h.mark c hcol).1 (by simpa using hm)

/-- After block row `ib`. -/
theorem wp_randomBlkRow {A0 : EllB R} {bs : Arr Nat} {N ib : Nat} (rnd : Nat → Nat) (toR : Nat → R)
    {s : RandB R} {L : Nat → BRow R} {a : Spec.Mat R} (hMB : 0 < A0.MB) (hib : ib < A0.NB)
    (hbs : bs.size = A0.NB) (hbg : bs.get = A0.bsize.get) (h : RandBInv rnd toR A0 N ib s 0 L a) :
    (randomBlkRow bs rnd toR ib s).wp E fun s' => ∃ L' a', RandBInv rnd toR A0 N (ib + 1) s' 0 L' a' := by
  unfold randomBlkRow
  rw [Res.wp_bind]
  refine wp_loop' (n := s.A.MB) (fun n (st : RandB R × Nat × Nat) => ∃ L' a', RandBInv rnd toR A0 N ib st.1
    st.2.2 L' a' ∧ st.2.1 < A0.NB ∧ st.2.2 ≤ n ∧ (n = 0 → st.2.1 = ib) ∧
    (0 < n → ib ∈ (L' ib).map Prod.fst)) ⟨L, a, h, hib, le_rfl, fun _ => rfl, by omega⟩ ?_ ?_
  · rintro n hn ⟨s1, col, nz⟩ ⟨L1, a1, k1, k2, k3, k4, k5⟩
    rw [h.same.MB] at hn
    refine Res.wp_mono (wp_randomBlkStep rnd toR hn k3 hib k2 hbs hbg k1) ?_
    rintro ⟨s2, col2, nz2⟩ ⟨L2, a2, m1, m2, m3, m4⟩
    refine ⟨L2, a2, m1, m2, m3, by omega, fun _ => m4 ib ?_⟩
    rcases Nat.eq_zero_or_pos n with hz | hz
    · exact Or.inr (k4 hz).symm
    · exact Or.inl (k5 hz)
  · rintro ⟨s1, col, nz⟩ ⟨L1, a1, k1, k2, k3, -, k5⟩
    have hd := k5 (by rw [h.same.MB]; exact hMB)
    simp only at k1 k2 k3 ⊢
    rw [Res.wp_bind]
    have hl : ((L1 ib).map Prod.fst).length = nz := by rw [List.length_map, k1.len]
    have hnzMB : nz ≤ A0.MB := by rw [h.same.MB] at k3; exact k3
    have hcolb : ∀ c ∈ (L1 ib).map Prod.fst, c < A0.NB := by
      intro c hc
      obtain ⟨⟨c', b⟩, hp, rfl⟩ := List.mem_map.1 hc
      have := (k1.rows.good ib (by rw [k1.same.NB]; exact hib)).lt _ hp
      rw [k1.same.NB] at this
      exact this
    refine wp_loop' (n := nz) (fun n (m : Arr Bool) => m.size = A0.NB ∧ ∀ c, c < A0.NB →
      (m.get c = true ↔ ∃ k, n ≤ k ∧ ((L1 ib).map Prod.fst)[k]? = some c)) ⟨k1.msize, ?_⟩ ?_ ?_
    · intro c hc
      rw [k1.mark c hc, List.mem_iff_getElem?]
      simp
    · rintro n hn m ⟨q1, q2⟩
      have hp := k1.pos n hn
      have hpc := hcolb _ (List.mem_of_getElem? hp)
      rw [Arr.read_ok (by rw [k1.psize]; omega), Res.bind_ok, Arr.write_ok _ (by rw [q1]; exact hpc), Res.wp_ok]
      refine ⟨q1, fun c hc => ?_⟩
      simp only
      by_cases he : c = s1.pos.get n
      · subst he
        rw [upd_same]
        simp only [Bool.false_eq_true, false_iff, not_exists, not_and]
        intro k hk e
        have hnd := (k1.rows.good ib (by rw [k1.same.NB]; exact hib)).nodup
        have hlt : n < ((L1 ib).map Prod.fst).length := by omega
        have := (List.getElem?_inj hlt hnd).1 (hp.trans e.symm)
        omega
      · rw [upd_ne _ _ he, q2 c hc]
        constructor
        · rintro ⟨k, hk, e⟩
          rcases Nat.eq_or_lt_of_le hk with rfl | hlt
          · rw [hp] at e; exact absurd (Option.some.inj e).symm he
          · exact ⟨k, hlt, e⟩
        · rintro ⟨k, hk, e⟩; exact ⟨k, by omega, e⟩
    · rintro m ⟨q1, q2⟩
      rw [Res.wp_pure]
      have he := k1.empty (ib + 1) (by omega)
      refine ⟨L1, a1, k1.rows, k1.clean, k1.same, k1.drawn, by rw [he]; rfl, q1, k1.psize, ?_, by omega, ?_, ?_⟩
      · intro c hc
        rw [q2 c hc, he]
        simp only [List.map_nil, List.not_mem_nil, iff_false, not_exists, not_and]
        intro k hk e
        rw [List.getElem?_eq_none (by omega)] at e
        cases e
      · intro i hi
        rcases Nat.lt_or_ge i ib with hlt | hge
        · exact k1.diag i hlt
        · rw [show i = ib by omega]; exact hd
      · intro i hi; exact k1.empty i (by omega)

/-- `bml_random_matrix`. -/
theorem wp_randomMatrix {g : Glob} {N M : Nat} (h : g.For N M) (hM : M ≤ N) (rnd : Nat → Nat) (toR : Nat → R) :
    (randomMatrix g N M rnd toR).wp E (fun r => ∃ L b a, getBlockSizes g N M = .ok (r.1, b) ∧ r.1.Set N b ∧
      r.2.Rows N L a ∧ r.2.Clean ∧ Same (empty N M r.1.nb r.1.mb ⟨r.1.nb, b.get⟩ : EllB R) r.2 ∧
      AllDrawn r.2 L a rnd toR ∧ ∀ ib, ib < r.2.NB → ib ∈ (L ib).map Prod.fst) := by
  obtain ⟨g', b, e, hs⟩ := wp_getBlockSizes h hM
  unfold randomMatrix
  rw [e, Res.bind_ok]
  simp only
  rw [hs.blockMatrix hM, Res.bind_ok]
  simp only [Res.wp_bind, Res.wp_pure]
  refine wp_loop' (n := g'.nb) (fun n (s : RandB R) => ∃ L a,
    RandBInv rnd toR (empty N M g'.nb g'.mb ⟨g'.nb, b.get⟩ : EllB R) N n s 0 L a)
    ⟨fun _ => [], _, hs.empty_rows M, empty_clean, Same.refl _, ?_, rfl, rfl, rfl, ?_, by omega, by omega,
      fun _ _ => rfl⟩ ?_ ?_
  · intro ib jb ii jj _ hm; simp at hm
  · intro c _; simp
  · rintro ib hib s ⟨L, a, hI⟩
    exact wp_randomBlkRow rnd toR hs.mb hib hs.size rfl hI
  · rintro s ⟨L, a, hI⟩
    refine ⟨L, b, a, rfl, hs, hI.rows, hI.clean, hI.same, hI.drawn, ?_⟩
    intro ib hib
    rw [hI.same.NB] at hib
    exact hI.diag ib hib

end
end EllB
end Bml
