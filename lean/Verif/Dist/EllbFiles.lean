import Verif.Dist.FilesProof
import Verif.Ellblock.Ops25
import Verif.Props.Ellblock8
import Verif.Props.MatrixMarket

/-!
# Files of 2-D distributed block-ELLPACK matrices

The block-ELLPACK branches of `bml_read_bml_matrix_distributed2d` and `bml_write_bml_matrix_distributed2d`.
-/

namespace Bml

namespace Dist

variable {R : Type}

/-- `distributed2d/bml_utilities_distributed2d.c` 36-41, 93-100: the block sizes of the local matrix, once for
every column of the grid.  Simplification: the new array holds zeros before it is filled (all of it is). -/
def repeatSizes (p : Nat) (A : EllB R) : Res (Arr Nat) :=
  loop p (⟨A.NB * p, fun _ => 0⟩ : Arr Nat) fun q bs => copyRange A.bsize 0 bs (q * A.NB) A.NB

/-- `distributed2d/bml_utilities_distributed2d.c` 32-43, 89-102: the matrix for the whole, `A` is the local
matrix. -/
def bigMatrix (g : EllB.Glob) (p M : Nat) (A : EllB R) : Res (EllB R) := do
  let bs ← repeatSizes p A
  let x ← EllB.blockMatrix g (A.NB * p) (A.MB * p) M bs
  pure x.2

/-- Block-ELLPACK local matrices.  `own r` is the local matrix of rank `r` before the call, `g` has the block
sizes in force (on all ranks), `sc r` is the schedule of the parallel loop of `bml_copy` on rank `r`, `junk r`
uninitialised memory. -/
def ellbFiles [CommRing R] (g : EllB.Glob) (p : Nat) (own : Nat → EllB R) (f : Mm.Fmt R) (sc : Nat → Sched)
    (junk : Nat → Nat → R) : FileOps (EllB R) where
  zero r _ M := bigMatrix g p M (own r)
  noinit k N M := if k = 0 then bigMatrix g p M (own 0) else do
    let x ← EllB.noinitMatrix g N M
    pure x.2
  deliver C A := do
    let m ← A.mpiSend
    C.mpiRecv m
  assign A B irow icol := EllB.assign A B irow icol
  extract _ A irow icol n m := do
    let x ← EllB.extract g A irow icol n m
    pure x.2
  bcast _ B Z := do
    let m ← Z.mpiSend
    B.mpiBcast m
  copy r C A := EllB.copyInto (sc r) (junk r) C A
  read A file := A.readMm f file
  write A := A.writeMm f

/-- `A` is the `n × n` matrix `a`, made for `m` elements per row with the block sizes in force. -/
structure BlockTile [AddCommMonoid R] (g : EllB.Glob) (b : Arr Nat) (n m : Nat) (A : EllB R) (a : Spec.Mat R) :
    Prop where
  rep : A.Represents n a
  M : A.M = m
  NB : A.NB = g.nb
  MB : A.MB = g.mb
  bsize : A.bsize = ⟨g.nb, b.get⟩

/-- The sizes of the blocks of the whole matrix. -/
def repSizes (nb p : Nat) (bs : Nat → Nat) : Nat → Nat := fun k => if k < nb * p then bs (k % nb) else 0

theorem repeatSizes_eq {p : Nat} {A : EllB R} (hs : A.NB ≤ A.bsize.size) :
    repeatSizes p A = .ok ⟨A.NB * p, repSizes A.NB p A.bsize.get⟩ := by
  unfold repeatSizes
  obtain ⟨r, e, h1, h2⟩ := Res.wp_exists (wp_loop' (E := False) (n := p) (s := (⟨A.NB * p, fun _ => 0⟩ : Arr Nat))
    (f := fun q bs => copyRange A.bsize 0 bs (q * A.NB) A.NB)
    (fun q (r : Arr Nat) => r.size = A.NB * p ∧ ∀ k, r.get k = if k < A.NB * q then A.bsize.get (k % A.NB) else 0)
    ⟨rfl, fun k => by simp⟩ (by
      rintro q hq r ⟨h1, h2⟩
      have hle : A.NB * q + A.NB ≤ A.NB * p := by
        rw [← Nat.mul_succ]; exact Nat.mul_le_mul_left _ hq
      refine Res.wp_mono (wp_copyRange (by omega) (by rw [h1, Nat.mul_comm]; exact hle)) ?_
      rintro r' ⟨h3, h4⟩
      refine ⟨h3.trans h1, fun k => ?_⟩
      rw [h4 k, h2 k, Nat.mul_comm q, Nat.mul_succ]
      by_cases ha : A.NB * q ≤ k ∧ k < A.NB * q + A.NB
      · rw [if_pos ha, if_pos ha.2, Nat.zero_add]
        congr 1
        obtain ⟨d, rfl⟩ := Nat.exists_eq_add_of_le ha.1
        rw [Nat.mul_add_mod, Nat.mod_eq_of_lt (by omega)]
        omega
      · rw [if_neg ha]
        by_cases hb : k < A.NB * q
        · rw [if_pos hb, if_pos (by omega)]
        · rw [if_neg hb, if_neg (by omega)]) (fun _ h => h))
  rw [e]
  congr 1
  cases r with
  | mk size get =>
    simp only at h1 h2
    rw [h1, show get = repSizes A.NB p A.bsize.get from funext h2]

theorem repSizes_at {nb p q k : Nat} {bs : Nat → Nat} (hq : q < p) (hk : k < nb) :
    repSizes nb p bs (q * nb + k) = bs k := by
  have hle : nb * q + nb ≤ nb * p := by
    rw [← Nat.mul_succ]; exact Nat.mul_le_mul_left _ hq
  unfold repSizes
  rw [Nat.mul_comm q, if_pos (by omega), Nat.mul_add_mod, Nat.mod_eq_of_lt hk]

theorem repSizes_off {nb p : Nat} {bs : Nat → Nat} : ∀ q, q ≤ p →
    EllB.off (repSizes nb p bs) (q * nb) = q * EllB.off bs nb := by
  intro q
  induction q with
  | zero => intro _; rw [Nat.zero_mul, Nat.zero_mul, EllB.off_zero]
  | succ q ih =>
    intro hq
    rw [Nat.succ_mul, EllB.off_shift (bs' := bs) (nb := nb) (fun k hk => repSizes_at (by omega) hk) nb le_rfl,
      ih (by omega), Nat.succ_mul]

/-- The matrix that `bigMatrix` makes. -/
def bigEmpty (g : EllB.Glob) (b : Arr Nat) (p n M : Nat) : EllB R :=
  EllB.empty (p * n) M (g.nb * p) (g.mb * p) ⟨g.nb * p, repSizes g.nb p b.get⟩

variable [CommRing R] {g : EllB.Glob} {b : Arr Nat} {p n M : Nat} {a : Spec.Mat R}

theorem bigMatrix_eq (hg : g.Set n b) (hp : 0 < p) (hM : M ≤ p * n) {m : Nat} {A : EllB R} {x : Spec.Mat R}
    (hA : BlockTile g b n m A x) : bigMatrix g p M A = .ok (bigEmpty g b p n M) := by
  unfold bigMatrix
  rw [repeatSizes_eq (by rw [hA.bsize, hA.NB]), Res.bind_ok, hA.NB, hA.MB, hA.bsize]
  have hsum : EllB.off (repSizes g.nb p b.get) (g.nb * p) = p * n := by
    rw [Nat.mul_comm, repSizes_off p le_rfl, hg.sum]
  have hmb := hg.mb
  have hnb := hg.nb
  rw [EllB.blockMatrix_eq (Nat.mul_pos hnb hp) (Nat.mul_pos hmb hp) le_rfl (fun k hk => by
    simp only [repSizes]
    rw [if_pos hk]
    exact hg.small _ (Nat.mod_lt _ hnb)) (by simp only; rw [hsum]; exact hM) (by omega), Res.bind_ok]
  simp only [hsum, Res.pure_eq]
  rfl

theorem bigEmpty_rows (hg : g.Set n b) : (bigEmpty g b p n M : EllB R).Rows (p * n) (fun _ => []) (fun _ _ => 0) :=
  EllB.empty_rows rfl (by
    show EllB.off (repSizes g.nb p b.get) (g.nb * p) = p * n
    rw [Nat.mul_comm, repSizes_off p le_rfl, hg.sum])

/-- The number of blocks of a row after an assignment. -/
theorem wp_assign_nnzb {E : Prop} {A B : EllB R} {N NB : Nat} {L LB : Nat → EllB.BRow R} {a b : Spec.Mat R}
    (h : A.Rows N L a) (hB : B.Rows NB LB b) (hpos : ∀ ib, ib < A.NB → 0 < A.bsize.get ib)
    {irowb icolb : Nat} (hrow : irowb + B.NB ≤ A.NB) (hcol : icolb + B.NB ≤ A.NB)
    (hsz : ∀ k, k < B.NB → A.bsize.get k = B.bsize.get k)
    (hroom : ∀ ib, ib < B.NB → A.nnzb.get (irowb + ib) + B.nnzb.get ib ≤ A.MB) :
    (EllB.assign A B (EllB.off A.bsize.get irowb) (EllB.off A.bsize.get icolb)).wp E (fun A' =>
      ∀ r, r < A.NB → A'.nnzb.get r = A.nnzb.get r +
        if irowb ≤ r ∧ r < irowb + B.NB then B.nnzb.get (r - irowb) else 0) := by
  have hbs := h.is.bs_size
  unfold EllB.assign
  rw [EllB.blockAt_eq (by omega) (fun i hi => hpos i (by omega)), Res.bind_ok,
    EllB.blockAt_eq (by omega) (fun i hi => hpos i (by omega)), Res.bind_ok]
  refine Res.wp_mono (EllB.wp_assignLoop h.is hB.is hB.good hrow hsz ?_) ?_
  · intro r hr
    rw [← h.is.nz _ (by omega), ← hB.is.nz _ hr]
    exact hroom r hr
  rintro A' ⟨hs, hc, hI⟩ r hr
  rw [hI.nz r (by rw [hs.NB]; exact hr), h.is.nz r hr]
  split
  · next hin =>
    rw [hB.is.nz _ (by omega), List.length_append]
    simp [EllB.shiftRow]
  · rfl

/-- The matrix of rank 0 with the first `k` tiles. -/
structure BlockAcc (g : EllB.Glob) (b : Arr Nat) (p n M : Nat) (a : Spec.Mat R) (k : Nat) (B : EllB R) : Prop where
  same : EllB.Same (bigEmpty g b p n M : EllB R) B
  clean : B.Clean
  rep : B.Represents (p * n) (tilesTo p n k a (fun _ _ => 0))
  has : ∀ ib jb, ib < g.nb * p → jb < g.nb * p → B.Has ib jb → ib / g.nb * p + jb / g.nb < k
  room : ∀ ib, ib < g.nb * p → B.nnzb.get ib ≤ (k - ib / g.nb * p) * g.mb

theorem div_block {nb q k : Nat} (hk : k < nb) : (q * nb + k) / nb = q := by
  rw [Nat.add_comm, Nat.add_mul_div_right _ _ (by omega), Nat.div_eq_of_lt hk, Nat.zero_add]

theorem block_step (hg : g.Set n b) (hpos : ∀ k, k < g.nb → 0 < b.get k) (hn : 0 < n) {m k : Nat} (hk : k < p * p)
    {B C : EllB R} (hC : BlockTile g b n m C (tile n (k / p) (k % p) a)) (hB : BlockAcc g b p n M a k B) :
    ∃ B', EllB.assign B C (k / p * n) (k % p * n) = .ok B' ∧ BlockAcc g b p n M a (k + 1) B' := by
  obtain ⟨hkr, hkc, -⟩ := coords hk
  have eNB : B.NB = g.nb * p := hB.same.NB
  have eMB : B.MB = g.mb * p := hB.same.MB
  have ebs : B.bsize = ⟨g.nb * p, repSizes g.nb p b.get⟩ := hB.same.bsize
  have ebs' : B.bsize.get = repSizes g.nb p b.get := by rw [ebs]
  have hcC : C.bsize.get = b.get := by rw [hC.bsize]
  obtain ⟨L, h⟩ := EllB.represents_iff.1 hB.rep
  obtain ⟨LC, hR⟩ := EllB.represents_iff.1 hC.rep
  have hwin : ∀ q, q < p → q * g.nb + C.NB ≤ B.NB := fun q hq => by
    rw [hC.NB, eNB, Nat.mul_comm g.nb]; exact window_le hq
  have hsz : ∀ j, j < C.NB → B.bsize.get j = C.bsize.get j ∧
      B.bsize.get (k / p * g.nb + j) = C.bsize.get j ∧ B.bsize.get (k % p * g.nb + j) = C.bsize.get j := by
    intro j hj
    rw [hC.NB] at hj
    rw [ebs', hcC]
    refine ⟨?_, repSizes_at hkr hj, repSizes_at hkc hj⟩
    have := repSizes_at (bs := b.get) (show 0 < p by omega) hj
    rwa [Nat.zero_mul, Nat.zero_add] at this
  have hposB : ∀ ib, ib < B.NB → 0 < B.bsize.get ib := by
    intro ib hib
    rw [eNB] at hib
    rw [ebs']
    unfold repSizes
    rw [if_pos hib]
    exact hpos _ (Nat.mod_lt _ hg.nb)
  have hCmb : ∀ j, j < g.nb → C.nnzb.get j ≤ g.mb := by
    intro j hj
    have hj' : j < C.NB := by rw [hC.NB]; exact hj
    have := hR.is.le j hj'
    rw [hR.is.nz j hj', ← hC.MB]
    exact this
  have hkmod : k - k / p * p = k % p := by
    have := Nat.div_add_mod k p
    rw [Nat.mul_comm] at this
    omega
  have hroom : ∀ ib, ib < C.NB → B.nnzb.get (k / p * g.nb + ib) + C.nnzb.get ib ≤ B.MB := by
    intro ib hib
    have hw := hwin (k / p) hkr
    have hib' : ib < g.nb := by rw [← hC.NB]; exact hib
    have h1 := hB.room (k / p * g.nb + ib) (by rw [← eNB]; omega)
    rw [div_block hib', hkmod] at h1
    have h2 := hCmb ib hib'
    have h3 : (k % p + 1) * g.mb ≤ p * g.mb := Nat.mul_le_mul_right _ hkc
    rw [Nat.succ_mul] at h3
    rw [eMB, Nat.mul_comm g.mb]
    omega
  have hno : ∀ ib jb, ib < C.NB → jb < C.NB → C.Has ib jb → ¬ B.Has (k / p * g.nb + ib) (k % p * g.nb + jb) := by
    intro ib jb h1 h2 _ hh
    have w1 := hwin (k / p) hkr
    have w2 := hwin (k % p) hkc
    have := hB.has _ _ (by rw [← eNB]; omega) (by rw [← eNB]; omega) hh
    rw [div_block (by rw [← hC.NB]; exact h1), div_block (by rw [← hC.NB]; exact h2), Nat.mul_comm,
      Nat.div_add_mod] at this
    omega
  have eo : ∀ q, q < p → EllB.off B.bsize.get (q * g.nb) = q * n := fun q hq => by
    rw [ebs', repSizes_off q (by omega), hg.sum]
  have hw := h.wp_assign (E := False) hR hposB (hwin _ hkr) (hwin _ hkc) hsz hno hroom
  have hw2 := wp_assign_nnzb (E := False) h hR hposB (hwin _ hkr) (hwin _ hkc) (fun j hj => (hsz j hj).1) hroom
  obtain ⟨B', e, ⟨h1, h2, ⟨L', h3⟩, h4⟩, h5⟩ := Res.wp_exists (Res.wp_and hw hw2)
  rw [eo _ hkr, eo _ hkc] at e h3
  refine ⟨B', e, hB.same.trans h1, h2 hB.clean, EllB.represents_iff.2 ⟨L', h3.congr ?_⟩, ?_, ?_⟩
  · intro i j hi hj
    rw [← tilesTo_step hn a (fun _ _ => 0) hj]
    beta_reduce
    by_cases hc : (k / p * n ≤ i ∧ i < k / p * n + n) ∧ (k % p * n ≤ j ∧ j < k % p * n + n)
    · rw [if_pos hc, if_pos ⟨hc.1.1, hc.1.2, hc.2.1, hc.2.2⟩]
      have := (window_iff hn hj).1 hc
      unfold tilesTo
      rw [if_neg (by omega), zero_add]
    · rw [if_neg hc, if_neg (fun hh => hc ⟨⟨hh.1, hh.2.1⟩, hh.2.2.1, hh.2.2.2⟩), add_zero]
  · intro ib jb hib hjb hh
    rcases (h4 ib jb (by rw [eNB]; exact hib) (by rw [eNB]; exact hjb)).1 hh with h6 | ⟨h6, h7, h8, h9, -⟩
    · have := hB.has ib jb hib hjb h6
      omega
    · rw [hC.NB] at h7 h9
      obtain ⟨d, rfl⟩ := Nat.exists_eq_add_of_le h6
      obtain ⟨d', rfl⟩ := Nat.exists_eq_add_of_le h8
      rw [div_block (by omega), div_block (by omega), Nat.mul_comm, Nat.div_add_mod]
      omega
  · intro ib hib
    rw [h5 ib (by rw [eNB]; exact hib)]
    have h6 := hB.room ib hib
    split
    · next hin =>
      rw [hC.NB] at hin
      obtain ⟨d, rfl⟩ := Nat.exists_eq_add_of_le hin.1
      have hd : d < g.nb := by omega
      have h7 := hCmb d hd
      rw [div_block hd, hkmod] at h6
      rw [div_block hd, show k + 1 - k / p * p = k % p + 1 by
        have := Nat.div_mul_le_self k p; omega, Nat.succ_mul, show k / p * g.nb + d - k / p * g.nb = d by omega]
      omega
    · exact le_trans h6 (Nat.mul_le_mul_right _ (by omega))

/-- What a message leaves in a new tile. -/
theorem block_deliver (hg : g.Set n b) {m : Nat} (hm : m ≤ n) {A : EllB R} {x : Spec.Mat R}
    (hA : BlockTile g b n m A x) (hfit : A.stored ≤ n * m) :
    ∃ C0 C, EllB.noinitMatrix (R := R) g n m = .ok (g, C0) ∧ (A.mpiSend >>= fun msg => C0.mpiRecv msg) = .ok C ∧
      BlockTile g b n m C x := by
  have e0 : EllB.noinitMatrix (R := R) g n m = .ok (g, EllB.empty n m g.nb g.mb ⟨g.nb, b.get⟩) := by
    unfold EllB.noinitMatrix
    have : EllB.getBlockSizes g n 0 = .ok (g, b) := by
      unfold EllB.getBlockSizes
      rw [hg.bsize]
    rw [this, Res.bind_ok]
    exact hg.blockMatrix hm
  obtain ⟨C, e, hs, hC, -⟩ := Props.C57_ellblock_send_recv_partial hA.rep
    (EllB.represents_iff.2 ⟨_, hg.empty_rows (R := R) m⟩) (hA.M.symm) (hA.NB.symm) (hA.MB.symm) hA.bsize.symm
    (by rw [hA.M]; exact hfit)
  exact ⟨_, C, e0, e, hC, hs.M, hs.NB, hs.MB, hs.bsize⟩

/-- The matrix of rank 0 after `k` messages, if they fit into the buffers. -/
theorem block_write_to {D : Nat → EllB R} (hg : g.Set n b) (hpos : ∀ k, k < g.nb → 0 < b.get k) (hp : 0 < p)
    (hn : 0 < n) (hM : M ≤ p * n) (hD : Holds (BlockTile g b n (M / p)) p n D a) (f : Mm.Fmt R)
    (sc : Nat → Sched) (junk : Nat → Nat → R) : ∀ k, k < p * p →
    (∀ i, 0 < i → i ≤ k → (D i).stored ≤ n * (M / p)) →
    ∃ B, (writeNet (ellbFiles g p D f sc junk) p (p * n) M D).after
        (writeStart (ellbFiles g p D f sc junk) (p * n) M D) k = .ok B ∧ BlockAcc g b p n M a (k + 1) B := by
  have hN : p * n / p = n := Nat.mul_div_cancel_left n hp
  have hm : M / p ≤ n := by
    rw [← hN]; exact Nat.div_le_div_right hM
  have hT : ∀ k, k < p * p → BlockTile g b n (M / p) (D k) (tile n (k / p) (k % p) a) := fun k hk => by
    obtain ⟨h1, h2, h3⟩ := coords hk
    have := hD _ _ h1 h2
    rwa [h3] at this
  intro k
  induction k with
  | zero =>
    intro hpp _
    have hz : BlockAcc g b p n M a 0 (bigEmpty g b p n M : EllB R) := by
      refine ⟨EllB.Same.refl _, EllB.empty_clean, EllB.represents_iff.2 ⟨_, (bigEmpty_rows hg).congr ?_⟩, ?_, ?_⟩
      · intro i j _ _
        unfold tilesTo
        rw [if_neg (by omega)]
      · rintro ib jb _ _ ⟨jp, h1, -⟩
        exact absurd h1 (Nat.not_lt_zero jp)
      · intro ib _; exact Nat.zero_le _
    obtain ⟨B, e, hB⟩ := block_step hg hpos hn hpp (hT 0 hpp) hz
    rw [Nat.zero_div, Nat.zero_mod, Nat.zero_mul] at e
    refine ⟨B, ?_, hB⟩
    show ((if 0 = 0 then bigMatrix g p M (D 0) else do
      let x ← EllB.noinitMatrix (R := R) g (p * n) M
      pure x.2) >>= fun B => EllB.assign B (D 0) 0 0) = _
    rw [if_pos rfl, bigMatrix_eq hg hp hM (hT 0 hpp), Res.bind_ok, e]
  | succ k ih =>
    intro hk hfit
    obtain ⟨B, eB, hB⟩ := ih (by omega) fun i h1 h2 => hfit i h1 (by omega)
    obtain ⟨C0, C, e0, e, hC⟩ := block_deliver hg hm (hT (k + 1) hk) (hfit (k + 1) (by omega) le_rfl)
    obtain ⟨B', e', h'⟩ := block_step hg hpos hn hk hC hB
    refine ⟨B', ?_, h'⟩
    rw [Coll.after, eB]
    simp only [writeNet, ellbFiles]
    rw [Res.bind_ok, hN, if_neg (by omega), e0, Res.bind_ok, Res.pure_eq, Res.bind_ok, e, Res.bind_ok, e']

theorem block_write {D : Nat → EllB R} (hg : g.Set n b) (hpos : ∀ k, k < g.nb → 0 < b.get k) (hp : 0 < p)
    (hn : 0 < n) (hM : M ≤ p * n) (hD : Holds (BlockTile g b n (M / p)) p n D a)
    (hfit : ∀ k, 0 < k → k < p * p → (D k).stored ≤ n * (M / p)) (f : Mm.Fmt R) (sc : Nat → Sched)
    (junk : Nat → Nat → R) :
    ∃ B, (writeNet (ellbFiles g p D f sc junk) p (p * n) M D).after
        (writeStart (ellbFiles g p D f sc junk) (p * n) M D)
        ((writeNet (ellbFiles g p D f sc junk) p (p * n) M D).P - 1) = .ok B ∧
      BlockAcc g b p n M a (p * p) B := by
  have hpp : 0 < p * p := Nat.mul_pos hp hp
  have := block_write_to hg hpos hp hn hM hD f sc junk (p * p - 1) (by omega) fun i h1 h2 => hfit i h1 (by omega)
  rwa [show p * p - 1 + 1 = p * p by omega] at this

theorem block_write_ub {D : Nat → EllB R} (hg : g.Set n b) (hpos : ∀ k, k < g.nb → 0 < b.get k) (hp : 0 < p)
    (hn : 0 < n) (hM : M ≤ p * n) (hD : Holds (BlockTile g b n (M / p)) p n D a)
    (hbig : ∃ k, 0 < k ∧ k < p * p ∧ n * (M / p) < (D k).stored) (f : Mm.Fmt R) (sc : Nat → Sched)
    (junk : Nat → Nat → R) :
    (writeNet (ellbFiles g p D f sc junk) p (p * n) M D).after
        (writeStart (ellbFiles g p D f sc junk) (p * n) M D)
        ((writeNet (ellbFiles g p D f sc junk) p (p * n) M D).P - 1) = .ub := by
  classical
  have hN : p * n / p = n := Nat.mul_div_cancel_left n hp
  have hm : M / p ≤ n := by
    rw [← hN]; exact Nat.div_le_div_right hM
  obtain ⟨h1, h2, h3⟩ := Nat.find_spec hbig
  generalize hf : Nat.find hbig = k0 at h1 h2 h3
  obtain ⟨k1, rfl⟩ : ∃ k1, k0 = k1 + 1 := ⟨k0 - 1, by omega⟩
  have key : ∀ d, (writeNet (ellbFiles g p D f sc junk) p (p * n) M D).after
        (writeStart (ellbFiles g p D f sc junk) (p * n) M D) (k1 + 1 + d) = .ub := by
    intro d
    induction d with
    | zero =>
      obtain ⟨B, eB, -⟩ := block_write_to hg hpos hp hn hM hD f sc junk k1 (by omega) fun i hi1 hi2 => by
        by_contra hc
        exact Nat.find_min hbig (m := i) (by omega) ⟨hi1, by omega, by omega⟩
      have hT : BlockTile g b n (M / p) (D (k1 + 1)) (tile n ((k1 + 1) / p) ((k1 + 1) % p) a) := by
        obtain ⟨q1, q2, q3⟩ := coords h2
        have := hD _ _ q1 q2
        rwa [q3] at this
      have eu := Props.C57_ellblock_send_overflow hT.rep (by rw [hT.M]; exact h3)
      have e0 : EllB.noinitMatrix (R := R) g n (M / p) = .ok (g, EllB.empty n (M / p) g.nb g.mb ⟨g.nb, b.get⟩) := by
        unfold EllB.noinitMatrix
        have : EllB.getBlockSizes g n 0 = .ok (g, b) := by
          unfold EllB.getBlockSizes
          rw [hg.bsize]
        rw [this, Res.bind_ok]
        exact hg.blockMatrix hm
      rw [Nat.add_zero, Coll.after, eB]
      simp only [writeNet, ellbFiles]
      rw [Res.bind_ok, hN, if_neg (by omega), e0, Res.bind_ok, Res.pure_eq, Res.bind_ok, eu]
      rfl
    | succ d ih =>
      rw [← Nat.add_assoc, Coll.after, ih]
      rfl
  have := key (p * p - 1 - (k1 + 1))
  rwa [show k1 + 1 + (p * p - 1 - (k1 + 1)) = p * p - 1 by omega] at this

theorem block_read {A : Nat → EllB R} {file : List Char} {f : Mm.Fmt R} {sc : Nat → Sched}
    {junk : Nat → Nat → R} {Z : EllB R} (hg : g.Set n b) {s : Nat} (hs0 : 0 < s)
    (hs : ∀ k, k < g.nb → b.get k = s) (hw : g.nb ≤ g.mb) (hp : 0 < p) (hM : M ≤ p * n) (hA0 : ∃ x, BlockTile g b n (M / p) (A 0) x)
    (e : (bigEmpty g b p n M : EllB R).readMm f file = .ok Z) (hS : EllB.Same (bigEmpty g b p n M : EllB R) Z)
    (hZ : Z.Represents (p * n) a) (hfit : Z.stored ≤ p * n * M) {r : Nat} (hr : r < p * p)
    {x : Spec.Mat R} (hA : BlockTile g b n (M / p) (A r) x) (hC : (A r).Clean) (hsc : IsSched 0 g.nb (sc r)) :
    ∃ A', readFile (ellbFiles g p A f sc junk) p (p * n) M file r (A r) = .ok A' ∧
      A'.Represents n (tile n (prow p r) (pcol p r) a) := by
  have hN : p * n / p = n := Nat.mul_div_cancel_left n hp
  have hm : M / p ≤ n := by
    rw [← hN]; exact Nat.div_le_div_right hM
  obtain ⟨x0, hA0⟩ := hA0
  have hroot : readRoot (ellbFiles g p A f sc junk) (p * n) M file = .ok Z := by
    show (bigMatrix g p M (A 0) >>= fun Z => Z.readMm f file) = _
    rw [bigMatrix_eq hg hp hM hA0, Res.bind_ok, e]
  have hZM : Z.M = M := hS.M
  have hZNB : Z.NB = g.nb * p := hS.NB
  have hZMB : Z.MB = g.mb * p := hS.MB
  have hnb := hg.nb
  have hmb := hg.mb
  have hB : ∃ B0 B, readStart (ellbFiles g p A f sc junk) (p * n) M file r = .ok B0 ∧
      (ellbFiles g p A f sc junk).bcast r B0 Z = .ok B ∧ EllB.Same (bigEmpty g b p n M : EllB R) B ∧
      B.Represents (p * n) a := by
    unfold readStart
    by_cases h0 : r = 0
    · rw [if_pos h0, hroot]
      obtain ⟨B, e1, h1, h2, -⟩ := Props.C57_ellblock_bcast_partial hZ hZ rfl rfl rfl rfl
        (by rw [hZNB]; exact Nat.mul_pos hnb hp) (by rw [hZMB]; exact Nat.mul_pos hmb hp) (by rw [hZM]; exact hfit)
      exact ⟨Z, B, rfl, e1, hS.trans h1, h2⟩
    · rw [if_neg h0]
      obtain ⟨B, e1, h1, h2, -⟩ := Props.C57_ellblock_bcast_partial hZ
        (EllB.represents_iff.2 ⟨_, bigEmpty_rows (R := R) (p := p) (M := M) hg⟩) hS.M.symm hS.NB.symm hS.MB.symm hS.bsize.symm
        (by rw [hZNB]; exact Nat.mul_pos hnb hp) (by rw [hZMB]; exact Nat.mul_pos hmb hp) (by rw [hZM]; exact hfit)
      exact ⟨_, B, bigMatrix_eq hg hp hM hA, e1, h1, h2⟩
  obtain ⟨B0, B, e0, eb, hSB, hB⟩ := hB
  obtain ⟨L, h⟩ := EllB.represents_iff.1 hB
  have eNB : B.NB = g.nb * p := hSB.NB
  have ebs' : B.bsize.get = repSizes g.nb p b.get := by rw [hSB.bsize]; rfl
  have hrow := prow_lt hr
  have hcol := pcol_lt hr
  have eo : ∀ q, q < p → EllB.off B.bsize.get (q * g.nb) = q * n := fun q hq => by
    rw [ebs', repSizes_off q (by omega), hg.sum]
  have eo1 : EllB.off B.bsize.get g.nb = n := by
    have := repSizes_off (bs := b.get) (nb := g.nb) (p := p) 1 hp
    rw [Nat.one_mul, Nat.one_mul, hg.sum] at this
    rw [ebs', this]
  have hx := h.wp_extract (E := False) (irowb := prow p r * g.nb) (icolb := pcol p r * g.nb) (nb := g.nb)
    (BM := M / p) (fun ib hib => by
      rw [eNB] at hib
      rw [ebs']
      unfold repSizes
      rw [if_pos hib, hs _ (Nat.mod_lt _ hnb)]
      exact hs0) (by rw [eNB, Nat.mul_comm g.nb]; exact window_le hrow)
    (by rw [eNB, Nat.mul_comm g.nb]; exact window_le hcol) hg le_rfl (fun k hk => by
      rw [ebs']
      refine ⟨?_, repSizes_at hrow hk, repSizes_at hcol hk⟩
      have := repSizes_at (bs := b.get) hp hk
      rwa [Nat.zero_mul, Nat.zero_add] at this)
    (fun k hk => ⟨Finset.range g.nb, by rw [Finset.card_range]; exact hw, fun c hc _ => Finset.mem_range.2 hc⟩)
    (by rw [eo1]; exact hm)
  rw [eo _ hrow, eo _ hcol, eo1] at hx
  obtain ⟨⟨g', C⟩, eC, -, c1, c2, c3, c4, c5, ⟨LC, c6⟩, -⟩ := Res.wp_exists hx
  simp only at c1 c2 c3 c4 c5 c6
  have hCbs : C.bsize = ⟨g.nb, b.get⟩ := by
    have h1 := c6.is.bs_size
    rw [c1] at h1
    revert h1 c4
    cases C.bsize with
    | mk size get => intro h1 h2; simp only at h1 h2; rw [h1, h2]
  obtain ⟨A', eA, -, hA'⟩ := Props.C56_copy_uniform (s := s) (EllB.represents_iff.2 ⟨LC, c6⟩) hA.rep hC
    (hA.NB.trans c1.symm) (hA.MB.trans c2.symm) (hA.bsize.trans hCbs.symm)
    (fun ib hib => by rw [c1] at hib; rw [hCbs]; exact hs ib hib) (sc := sc r) (by rw [c1]; exact hsc) (junk r)
  obtain ⟨LA, hLA⟩ := EllB.represents_iff.1 hA'
  refine ⟨A', ?_, EllB.represents_iff.2 ⟨LA, hLA.congr fun i j hi hj => ?_⟩⟩
  · unfold readFile
    rw [e0, Res.bind_ok, hroot, Res.bind_ok, eb, Res.bind_ok, hN]
    show ((do
      let x ← EllB.extract g B (prow p r * n) (pcol p r * n) n (M / p)
      pure x.2) >>= fun C => EllB.copyInto (sc r) (junk r) C (A r)) = _
    rw [eC, Res.bind_ok, Res.pure_eq, Res.bind_ok, eA]
  · beta_reduce
    rw [if_pos ⟨hi, hj⟩]
    rfl

/-- The broadcast of a file with more stored elements than the buffer has room for. -/
theorem block_read_ub {A : Nat → EllB R} {file : List Char} {f : Mm.Fmt R} (sc : Nat → Sched)
    (junk : Nat → Nat → R) {Z : EllB R} (hg : g.Set n b) (hp : 0 < p) (hM : M ≤ p * n)
    (hA0 : ∃ x, BlockTile g b n (M / p) (A 0) x) (e : (bigEmpty g b p n M : EllB R).readMm f file = .ok Z)
    (hS : EllB.Same (bigEmpty g b p n M : EllB R) Z) (hZ : Z.Represents (p * n) a)
    (hbig : p * n * M < Z.stored) {r : Nat} (hA : ∃ x, BlockTile g b n (M / p) (A r) x) :
    readFile (ellbFiles g p A f sc junk) p (p * n) M file r (A r) = .ub := by
  obtain ⟨x0, hA0⟩ := hA0
  obtain ⟨x, hA⟩ := hA
  have hroot : readRoot (ellbFiles g p A f sc junk) (p * n) M file = .ok Z := by
    show (bigMatrix g p M (A 0) >>= fun Z => Z.readMm f file) = _
    rw [bigMatrix_eq hg hp hM hA0, Res.bind_ok, e]
  have hst : ∃ B0, readStart (ellbFiles g p A f sc junk) (p * n) M file r = .ok B0 := by
    unfold readStart
    split
    · exact ⟨_, hroot⟩
    · exact ⟨_, bigMatrix_eq hg hp hM hA⟩
  obtain ⟨B0, e0⟩ := hst
  unfold readFile
  rw [e0, Res.bind_ok, hroot, Res.bind_ok]
  simp only [ellbFiles]
  rw [Props.C57_ellblock_send_overflow hZ (by rw [hS.M]; exact hbig)]
  rfl

end Dist

end Bml
