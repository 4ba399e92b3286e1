import Verif.Dist.FilesProof
import Verif.Dist.Wrappers
import Verif.Wlp

/-!
# Property C67: files of distributed matrices

The matrix is `p n × p n`, rank `i p + j` has the `n × n` tile `(i,j)` in its local matrix: `Holds`.
`bml_write_bml_matrix` sends all tiles to rank 0, which writes the file; an execution is any
interleaving of the ranks' steps with any rule for when a send completes, as long as a send that rank 0
waits for can complete.  `bml_read_bml_matrix` reads the file on rank 0 and broadcasts it.
-/

namespace Bml.Props

open Dist

variable {R τ : Type}

/-- `k` steps of `bml_write_bml_matrix` on a distributed `N × N` matrix with local matrices `D` lead to
`conf`, in some interleaving, where `can` decides when sends complete. -/
def WriteReaches (F : FileOps τ) (p N M : Nat) (D : Nat → τ) (can : CConf (Res τ) τ → Nat → Prop)
    (k : Nat) (conf : CConf (Res τ) τ) : Prop :=
  (writeNet F p N M D).Reach can (writeStart F N M D) k conf

/-- No rank can do another step. -/
def WriteStuck (F : FileOps τ) (p N M : Nat) (D : Nat → τ) (can : CConf (Res τ) τ → Nat → Prop)
    (conf : CConf (Res τ) τ) : Prop := ¬ ∃ conf', (writeNet F p N M D).Step can conf conf'

/-- The MPI library lets a send complete once rank 0 waits for it. -/
def WriteFair (can : CConf (Res τ) τ → Nat → Prop) : Prop := ∀ c r, Coll.Ready c r → can c r

/-- Rank 0 has received from all ranks, and writes `file`. -/
def Wrote (F : FileOps τ) (p : Nat) (conf : CConf (Res τ) τ) (file : List Char) : Prop :=
  p * p ≤ conf.next ∧ writeEnd F conf.st = .ok file

/-- Executions that end exist, for every fair rule. -/
theorem write_ends (F : FileOps τ) (p N M : Nat) (D : Nat → τ) {can : CConf (Res τ) τ → Nat → Prop}
    (hcan : WriteFair can) : ∃ k conf, WriteReaches F p N M D can k conf ∧ WriteStuck F p N M D can conf :=
  Coll.exists_final _ _ hcan _

theorem write_correct {F : FileOps τ} {p N M : Nat} {D : Nat → τ} {s : Res τ}
    (h : (writeNet F p N M D).after (writeStart F N M D) ((writeNet F p N M D).P - 1) = s)
    {can : CConf (Res τ) τ → Nat → Prop} (hcan : WriteFair can) {k : Nat} {conf : CConf (Res τ) τ}
    (hr : WriteReaches F p N M D can k conf) : k ≤ 2 * (p * p - 1) ∧
      (WriteStuck F p N M D can conf → p * p ≤ conf.next ∧ conf.st = s) := by
  obtain ⟨h1, h2⟩ := Coll.Reach.correct hcan hr
  refine ⟨h1, fun hs => ⟨(h2 hs).1, (h2 hs).2.trans h⟩⟩

variable [CommRing R] {p n M : Nat} {a : Spec.Mat R}

/-! ## Dense -/

/-- **C67**, dense local matrices, writing: every execution ends after at most `2 (p² - 1)` messages
sent or received, without deadlock, and the file is the one that `bml_write_bml_matrix` writes for a
sequential matrix with all elements of the distributed matrix. -/
theorem C67_dense_write {D : Nat → Dense R} (hp : 0 < p) (hn : 0 < n)
    (hD : Holds (fun A a => A.Represents n a) p n D a) (f : Mm.Fmt R) (nz : R → Bool)
    (junk : Nat → Nat → R) {can : CConf (Res (Dense R)) (Dense R) → Nat → Prop} (hcan : WriteFair can)
    {k : Nat} {conf : CConf (Res (Dense R)) (Dense R)}
    (hr : WriteReaches (denseFiles f nz junk) p (p * n) M D can k conf) : k ≤ 2 * (p * p - 1) ∧
      (WriteStuck (denseFiles f nz junk) p (p * n) M D can conf →
        ∃ (B : Dense R) (file : List Char), B.Represents (p * n) a ∧ B.writeMm f nz = .ok file ∧
          Wrote (denseFiles f nz junk) p conf file) := by
  obtain ⟨B, e, hB⟩ := dense_write (M := M) hp hn hD f nz junk
  obtain ⟨h1, h2⟩ := write_correct e hcan hr
  refine ⟨h1, fun hs => ⟨B, _, hB, Dense.writeMm_eq (by rw [(Dense.represents_iff.1 hB).size, hB.dim]) f nz, (h2 hs).1, ?_⟩⟩
  rw [(h2 hs).2]
  exact Dense.writeMm_eq (by rw [(Dense.represents_iff.1 hB).size, hB.dim]) f nz

/-- **C67**, dense local matrices, reading: every rank gets its tile of what `bml_read_bml_matrix` reads
into a sequential zero matrix. -/
theorem C67_dense_read {file : List Char} {f : Mm.Fmt R} (nz : R → Bool) (junk : Nat → Nat → R)
    {Z : Dense R} (hp : 0 < p) (e : (Dense.zeroMatrix (p * n)).readMm f file = .ok Z)
    (hZ : Z.Represents (p * n) a) {A : Nat → Dense R} {b : Spec.Mat R}
    (hA : Holds (fun A a => A.Represents n a) p n A b) :
    ∃ D', Calls p (fun r => readFile (denseFiles f nz junk) p (p * n) M file r (A r)) D' ∧
      Holds (fun A a => A.Represents n a) p n D' a := by
  refine calls_of hp fun i j hi hj => ?_
  have := dense_read (M := M) (f := f) (nz := nz) (junk := junk) hp (by exact e) hZ
    (rankOf_lt hi hj) (hA i j hi hj)
  rwa [prow_rankOf hj, pcol_rankOf hj] at this

/-- **C67**, dense local matrices: a matrix that is written on one grid and read on any other one is
the same, in every execution. -/
theorem C67_dense_round_trip {D : Nat → Dense R} (hp : 0 < p) (hn : 0 < n)
    (hD : Holds (fun A a => A.Represents n a) p n D a) {f : Mm.Fmt R} (hk : Mm.Word f.kind)
    (hv : ∀ i j, i < p * n → j < p * n → f.Exact (a i j)) {nz : R → Bool} (hnz : ∀ v, nz v = false → v = 0)
    (junk : Nat → Nat → R) {can : CConf (Res (Dense R)) (Dense R) → Nat → Prop} (hcan : WriteFair can)
    {k : Nat} {conf : CConf (Res (Dense R)) (Dense R)}
    (hr : WriteReaches (denseFiles f nz junk) p (p * n) M D can k conf)
    (hs : WriteStuck (denseFiles f nz junk) p (p * n) M D can conf) :
    ∃ file, Wrote (denseFiles f nz junk) p conf file ∧
      ∀ {p' n' : Nat} (M' : Nat) {A : Nat → Dense R} {b : Spec.Mat R}, 0 < p' → p' * n' = p * n →
        Holds (fun A a => A.Represents n' a) p' n' A b →
        ∃ D', Calls p' (fun r => readFile (denseFiles f nz junk) p' (p * n) M' file r (A r)) D' ∧
          Holds (fun A a => A.Represents n' a) p' n' D' a := by
  obtain ⟨B, file, hB, hw, h⟩ := (C67_dense_write hp hn hD f nz junk hcan hr).2 hs
  obtain ⟨file', Z, e1, e2, hZ⟩ := C27_dense_round_trip hB hk hv hnz
  rw [hw] at e1
  injection e1 with e1
  subst e1
  refine ⟨file, h, fun {p' n'} M' {A b} hp' hN hA => ?_⟩
  rw [← hN] at e2 hZ ⊢
  exact C67_dense_read nz junk hp' e2 hZ hA

example : ∃ k conf file D', WriteReaches (denseFiles fmtInt (fun x => decide (x ≠ 0)) fun _ _ => 7) 2 4 4
      (denseTiles 2 2 exG) (fun _ _ => True) k conf ∧
    Wrote (denseFiles fmtInt (fun x => decide (x ≠ 0)) fun _ _ => 7) 2 conf file ∧
    Calls 1 (fun r => readFile (denseFiles fmtInt (fun x => decide (x ≠ 0)) fun _ _ => 7) 1 4 4 file r
      (Dense.zeroMatrix 4)) D' ∧ (D' 0).getElement 3 2 = .ok 15 := by
  obtain ⟨k, conf, h, hs⟩ := write_ends (denseFiles fmtInt (fun x => decide (x ≠ 0)) fun _ _ => 7) 2 4 4
    (denseTiles 2 2 exG) (can := fun _ _ => True) (fun _ _ _ => trivial)
  obtain ⟨file, h1, h2⟩ := C67_dense_round_trip (n := 2) (by omega) (by omega) (denseTiles_holds 2 2 exG)
    fmtInt_kind (fun _ _ _ _ => fmtInt_exact _) (fun v hv => by simpa using hv) (fun _ _ => 7)
    (fun _ _ _ => trivial) h hs
  obtain ⟨D', h3, h4⟩ := h2 (p' := 1) (n' := 4) 4 (A := fun _ => Dense.zeroMatrix 4) (by omega) rfl
    (b := Spec.zero) (fun i j _ _ => C32_dense_zero 4)
  exact ⟨k, conf, file, D', h, h1, h3, ((h4 0 0 (by omega) (by omega)).get 3 2 (by omega) (by omega)).trans
    (by decide)⟩

/-! ## ELLPACK -/

/-- **C67**, ELLPACK local matrices of width `M / p`, where `M` is the width of the distributed matrix:
writing.  The rows of the sequential matrix always have the room. -/
theorem C67_ellpack_write {D : Nat → Ell R} (hp : 0 < p) (hn : 0 < n)
    (hD : Holds (fun A a => A.Represents n a ∧ A.M = M / p) p n D a) (f : Mm.Fmt R) (jv : Nat → Nat → R)
    (ji : Nat → Nat → Nat) (sc : Nat → Sched) {can : CConf (Res (Ell R)) (Ell R) → Nat → Prop}
    (hcan : WriteFair can) {k : Nat} {conf : CConf (Res (Ell R)) (Ell R)}
    (hr : WriteReaches (ellFiles f jv ji sc) p (p * n) M D can k conf) : k ≤ 2 * (p * p - 1) ∧
      (WriteStuck (ellFiles f jv ji sc) p (p * n) M D can conf →
        ∃ (B : Ell R) (file : List Char), B.Represents (p * n) a ∧ B.M = M ∧ B.writeMm f = .ok file ∧
          Wrote (ellFiles f jv ji sc) p conf file) := by
  obtain ⟨B, e, hB⟩ := ell_write hp hn hD f jv ji sc
  have hB' : B.Represents (p * n) a := hB.rep.congr fun i j hi hj => tilesTo_all a _ hi hj
  obtain ⟨h1, h2⟩ := write_correct e hcan hr
  refine ⟨h1, fun hs => ⟨B, _, hB', hB.wid, Ell.writeMm_eq (Ell.represents_iff.1 hB') f, (h2 hs).1, ?_⟩⟩
  rw [(h2 hs).2]
  exact Ell.writeMm_eq (Ell.represents_iff.1 hB') f

/-- **C67**, ELLPACK local matrices, reading: every rank gets its tile if no row of the file has more
than `M / p` entries in the columns of one tile. -/
theorem C67_ellpack_read {file : List Char} {f : Mm.Fmt R} (jv : Nat → Nat → R) (ji : Nat → Nat → Nat)
    {sc : Nat → Sched} (hsc : ∀ r, r < p * p → IsSched 0 n (sc r)) {Z : Ell R} (hp : 0 < p)
    (hM : 0 < M / p) (e : (Ell.zeroMatrix (p * n) M).readMm f file = .ok Z)
    (hZ : Z.Represents (p * n) a) (hZM : Z.M = M)
    (hfit : ∀ i J, i < p * n → J < p →
      ((Finset.range n).filter fun j => Z.Stored i (J * n + j)).card ≤ M / p)
    {A : Nat → Ell R} {b : Spec.Mat R} (hA : Holds (fun A a => A.Represents n a ∧ A.M = M / p) p n A b) :
    ∃ D', Calls p (fun r => readFile (ellFiles f jv ji sc) p (p * n) M file r (A r)) D' ∧
      Holds (fun A a => A.Represents n a ∧ A.M = M / p) p n D' a := by
  have hMpos : 0 < M := Nat.pos_of_ne_zero (by rintro rfl; simp at hM)
  have er : readRoot (ellFiles f jv ji sc) (p * n) M file = .ok Z := by
    show (Ell.newZero (p * n) M >>= fun Z => Z.readMm f file) = _
    unfold Ell.newZero
    rw [if_pos hMpos, Res.bind_ok, e]
  refine calls_of hp fun i j hi hj => ?_
  have := ell_read hsc hp hM er hZ hZM hfit (rankOf_lt hi hj) (hA i j hi hj).1 (hA i j hi hj).2
  rwa [prow_rankOf hj, pcol_rankOf hj] at this

theorem ell_tile_fit {D : Nat → Ell R} {B Z : Ell R}
    (hn : 0 < n) (hD : Holds (fun A a => A.Represents n a ∧ A.M = M / p) p n D a)
    (hB : EllAcc p n M (M / p) (fun k i j => (D k).Stored i j) a (p * p) B)
    (hZ : ∀ i j, i < p * n → (Z.Stored i j ↔ B.Stored i j)) (i J : Nat) (hi : i < p * n) (hJ : J < p) :
    ((Finset.range n).filter fun j => Z.Stored i (J * n + j)).card ≤ M / p := by
  have hI : i / n < p := Nat.div_lt_of_lt_mul (by rw [Nat.mul_comm]; exact hi)
  obtain ⟨hR, hw⟩ := hD (i / n) J hI hJ
  have hle := (Ell.represents_iff.1 hR).le (i % n) (Nat.mod_lt _ hn)
  rw [hw] at hle
  refine le_trans ?_ hle
  rw [← Ell.row_length, ← List.length_map (f := Prod.fst)]
  refine le_trans (Finset.card_le_card ?_) (List.toFinset_card_le _)
  intro j hj
  obtain ⟨h1, h2⟩ := Finset.mem_filter.1 hj
  have hjn := Finset.mem_range.1 h1
  have hlt : J * n + j < p * n := by
    have := window_le (n := n) hJ
    omega
  rw [hZ _ _ hi] at h2
  have h3 := ((hB.stored i _ hi hlt).1 h2).2
  have e1 : tileAt p n i (J * n + j) = rankOf p (i / n) J := by
    unfold tileAt rankOf
    rw [Nat.add_comm (J * n), Nat.add_mul_div_right _ _ hn, Nat.div_eq_of_lt hjn, Nat.zero_add]
  have e2 : (J * n + j) % n = j := by rw [Nat.mul_add_mod', Nat.mod_eq_of_lt hjn]
  rw [e1, e2] at h3
  exact List.mem_toFinset.2 (Ell.stored_iff.1 h3)

/-- **C67**, ELLPACK local matrices: a matrix that is written and read on the same grid is the same, in
every execution; there is no condition on the widths. -/
theorem C67_ellpack_round_trip {D : Nat → Ell R} (hp : 0 < p) (hn : 0 < n) (hM : 0 < M / p)
    (hD : Holds (fun A a => A.Represents n a ∧ A.M = M / p) p n D a) {f : Mm.Fmt R} (hk : Mm.Word f.kind)
    (hv : ∀ i j, i < p * n → j < p * n → f.Exact (a i j)) (jv : Nat → Nat → R)
    (ji : Nat → Nat → Nat) {sc : Nat → Sched} (hsc : ∀ r, r < p * p → IsSched 0 n (sc r))
    {can : CConf (Res (Ell R)) (Ell R) → Nat → Prop}
    (hcan : WriteFair can) {k : Nat} {conf : CConf (Res (Ell R)) (Ell R)}
    (hr : WriteReaches (ellFiles f jv ji sc) p (p * n) M D can k conf)
    (hs : WriteStuck (ellFiles f jv ji sc) p (p * n) M D can conf) :
    ∃ file, Wrote (ellFiles f jv ji sc) p conf file ∧
      ∀ {A : Nat → Ell R} {b : Spec.Mat R}, Holds (fun A a => A.Represents n a ∧ A.M = M / p) p n A b →
        ∃ D', Calls p (fun r => readFile (ellFiles f jv ji sc) p (p * n) M file r (A r)) D' ∧
          Holds (fun A a => A.Represents n a ∧ A.M = M / p) p n D' a := by
  obtain ⟨B, e, hB⟩ := ell_write hp hn hD f jv ji sc
  have hB' : B.Represents (p * n) a := hB.rep.congr fun i j hi hj => tilesTo_all a _ hi hj
  obtain ⟨-, h2⟩ := write_correct e hcan hr
  obtain ⟨file, Z, e1, e2, h3, hZ, h4⟩ := ell_round hB' hk hv (M := M) fun i hi => by
    have := (Ell.represents_iff.1 hB').le i hi
    rwa [hB.wid] at this
  refine ⟨file, ⟨(h2 hs).1, ?_⟩, fun {A b} hA => ?_⟩
  · rw [(h2 hs).2]
    exact e1
  · exact C67_ellpack_read jv ji hsc hp hM e2 hZ h3 (ell_tile_fit hn hD hB h4) hA

/-- **C67**, ELLPACK local matrices: written on one grid and read on another one, whose local matrices
have room for full rows. -/
theorem C67_ellpack_regrid {D : Nat → Ell R} (hp : 0 < p) (hn : 0 < n)
    (hD : Holds (fun A a => A.Represents n a ∧ A.M = M / p) p n D a) {f : Mm.Fmt R} (hk : Mm.Word f.kind)
    (hv : ∀ i j, i < p * n → j < p * n → f.Exact (a i j)) (jv : Nat → Nat → R)
    (ji : Nat → Nat → Nat) (sc : Nat → Sched)
    {can : CConf (Res (Ell R)) (Ell R) → Nat → Prop}
    (hcan : WriteFair can) {k : Nat} {conf : CConf (Res (Ell R)) (Ell R)}
    (hr : WriteReaches (ellFiles f jv ji sc) p (p * n) M D can k conf)
    (hs : WriteStuck (ellFiles f jv ji sc) p (p * n) M D can conf) :
    ∃ file, Wrote (ellFiles f jv ji sc) p conf file ∧
      ∀ {p' n' M' : Nat} {A : Nat → Ell R} {b : Spec.Mat R} {sc' : Nat → Sched}, 0 < p' → 0 < n' →
        p' * n' = p * n → n' ≤ M' / p' → (∀ r, r < p' * p' → IsSched 0 n' (sc' r)) →
        Holds (fun A a => A.Represents n' a ∧ A.M = M' / p') p' n' A b →
        ∃ D', Calls p' (fun r => readFile (ellFiles f jv ji sc') p' (p * n) M' file r (A r)) D' ∧
          Holds (fun A a => A.Represents n' a ∧ A.M = M' / p') p' n' D' a := by
  obtain ⟨B, e, hB⟩ := ell_write hp hn hD f jv ji sc
  have hB' : B.Represents (p * n) a := hB.rep.congr fun i j hi hj => tilesTo_all a _ hi hj
  have hBr := Ell.represents_iff.1 hB'
  obtain ⟨-, h2⟩ := write_correct e hcan hr
  refine ⟨Mm.fileText f "general" (p * n) B.entries, ⟨(h2 hs).1, ?_⟩,
    fun {p' n' M' A b sc'} hp' hn' hN hfit hsc' hA => ?_⟩
  · rw [(h2 hs).2]
    exact Ell.writeMm_eq hBr f
  · have hM' : p' * n' ≤ M' := le_trans (Nat.mul_le_mul_left _ hfit) (Nat.mul_div_le M' p')
    obtain ⟨file, Z, e1, e2, h3, hZ, -⟩ := ell_round hB' hk hv (M := M') fun i hi => by
      have := (hBr.good i hi).length_le
      rw [Ell.row_length] at this
      omega
    rw [Ell.writeMm_eq hBr f] at e1
    injection e1 with e1
    subst e1
    rw [← hN] at e2 hZ ⊢
    exact C67_ellpack_read jv ji hsc' hp' (by omega) e2 hZ h3 (fun i J _ _ =>
      le_trans (Finset.card_filter_le _ _) (by rw [Finset.card_range]; exact hfit)) hA

/-- A `6 × 6` matrix of width 8 on a `2 × 2` grid. -/
example : ∃ k conf file D', WriteReaches (ellFiles fmtInt (fun _ _ => 5) (fun _ _ => 9) fun _ => exSched) 2 6
      8 (fun _ => exA) (fun _ _ => True) k conf ∧
    Wrote (ellFiles fmtInt (fun _ _ => 5) (fun _ _ => 9) fun _ => exSched) 2 conf file ∧
    Calls 2 (fun r => readFile (ellFiles fmtInt (fun _ _ => 5) (fun _ _ => 9) fun _ => exSched) 2 6 8 file r
      exB) D' ∧ (D' 3).getElement 1 0 = .ok (exa 1 0) := by
  obtain ⟨k, conf, h, hs⟩ := write_ends (ellFiles fmtInt (fun _ _ => 5) (fun _ _ => 9) fun _ => exSched) 2 6 8
    (fun _ => exA) (can := fun _ _ => True) (fun _ _ _ => trivial)
  obtain ⟨file, h1, h2⟩ := C67_ellpack_round_trip (n := 3) (by omega) (by omega) (by decide) exE_holds
    fmtInt_kind (fun _ _ _ _ => fmtInt_exact _) (fun _ _ => 5) (fun _ _ => 9)
    (fun _ _ => exSched_ok) (fun _ _ _ => trivial) h hs
  obtain ⟨D', h3, h4⟩ := h2 (A := fun _ => exB) (b := fun i j => exb (i % 3) (j % 3)) (fun i j _ _ =>
    ⟨exB_rep.congr fun r s hr hs => by
      unfold tile
      beta_reduce
      rw [Nat.mul_add_mod', Nat.mul_add_mod', Nat.mod_eq_of_lt hr, Nat.mod_eq_of_lt hs], rfl⟩)
  exact ⟨k, conf, file, D', h, h1, h3,
    ((h4 1 1 (by omega) (by omega)).1.get 1 0 (by omega) (by omega)).trans (by decide)⟩

/-! ## CSR -/

/-- **C67 (partial)**, CSR local matrices, writing: right if no row of a tile has more entries than the
rows of a new matrix have space for.  Missing: wider rows; there the claim is false, see
`C67_csr_write_overflow`. -/
theorem C67_csr_write_partial {D : Nat → Csr R} (hp : 0 < p) (hn : 0 < n)
    (hD : Holds (fun A a => A.Represents n a) p n D a)
    (hfit : ∀ k, k < p * p → ∀ i, i < n → ((D k).data.get i).nnz ≤ max 10 (M / p)) (f : Mm.Fmt R)
    (big0 : R → Bool) (jv : Nat → Nat → Nat → R) (ji : Nat → Nat → Nat → Nat) (sc : Nat → Sched)
    {can : CConf (Res (Csr R)) (Csr R) → Nat → Prop} (hcan : WriteFair can) {k : Nat}
    {conf : CConf (Res (Csr R)) (Csr R)}
    (hr : WriteReaches (csrFiles f big0 jv ji sc) p (p * n) M D can k conf) : k ≤ 2 * (p * p - 1) ∧
      (WriteStuck (csrFiles f big0 jv ji sc) p (p * n) M D can conf →
        ∃ (B : Csr R) (file : List Char), B.Represents (p * n) a ∧ B.writeMm f = .ok file ∧
          Wrote (csrFiles f big0 jv ji sc) p conf file) := by
  obtain ⟨B, e, hB⟩ := csr_write hp hn hD hfit f big0 jv ji sc
  obtain ⟨h1, h2⟩ := write_correct e hcan hr
  refine ⟨h1, fun hs => ⟨B, _, hB, Csr.writeMm_eq hB.wf f, (h2 hs).1, ?_⟩⟩
  rw [(h2 hs).2]
  exact Csr.writeMm_eq hB.wf f

/-- **C67 (partial)**, CSR local matrices, reading: every rank gets its tile if the file has an entry and
the rows of the local matrices have space for `n` entries.  Missing: files without entries, where the
claim is false (`C67_csr_read_empty`), and rows with less space (`C67_csr_read_full`). -/
theorem C67_csr_read_partial {file : List Char} {f : Mm.Fmt R} {big0 : R → Bool}
    (hb0 : ∀ x, big0 x = false → x = 0) (jv : Nat → Nat → Nat → R) (ji : Nat → Nat → Nat → Nat)
    {sc : Nat → Sched} (hsc : ∀ r, r < p * p → IsSched 0 n (sc r)) {Z : Csr R} (hp : 0 < p)
    (e : (Csr.newZero (p * n) M).readMm f file = .ok Z) (hZ : Z.Represents (p * n) a)
    (hpos : ∃ i j, i < p * n ∧ Z.Stored i j) {A : Nat → Csr R} {b : Spec.Mat R}
    (hA : Holds (fun A a => A.Represents n a ∧ ∀ i, i < n → n ≤ (A.data.get i).alloc) p n A b) :
    ∃ D', Calls p (fun r => readFile (csrFiles f big0 jv ji sc) p (p * n) M file r (A r)) D' ∧
      Holds (fun A a => A.Represents n a) p n D' a := by
  refine calls_of hp fun i j hi hj => ?_
  have := csr_read (M := M) (f := f) (jv := jv) (ji := ji) hb0 hsc hp (by exact e) hZ hpos
    (rankOf_lt hi hj) (hA i j hi hj).1 (hA i j hi hj).2
  rwa [prow_rankOf hj, pcol_rankOf hj] at this

/-- **C67 (partial)**, CSR local matrices: a matrix that is not zero, written on one grid and read on any
other one, is the same in every execution, under the two conditions on the space of rows. -/
theorem C67_csr_round_trip_partial {D : Nat → Csr R} (hp : 0 < p) (hn : 0 < n)
    (hD : Holds (fun A a => A.Represents n a) p n D a)
    (hfit : ∀ k, k < p * p → ∀ i, i < n → ((D k).data.get i).nnz ≤ max 10 (M / p)) {f : Mm.Fmt R}
    (hk : Mm.Word f.kind) (hv : ∀ i j, i < p * n → j < p * n → f.Exact (a i j))
    (hpos : ∃ i j, i < p * n ∧ j < p * n ∧ a i j ≠ 0) {big0 : R → Bool}
    (hb0 : ∀ x, big0 x = false → x = 0) (jv : Nat → Nat → Nat → R) (ji : Nat → Nat → Nat → Nat)
    (sc : Nat → Sched) {can : CConf (Res (Csr R)) (Csr R) → Nat → Prop} (hcan : WriteFair can) {k : Nat}
    {conf : CConf (Res (Csr R)) (Csr R)}
    (hr : WriteReaches (csrFiles f big0 jv ji sc) p (p * n) M D can k conf)
    (hs : WriteStuck (csrFiles f big0 jv ji sc) p (p * n) M D can conf) :
    ∃ file, Wrote (csrFiles f big0 jv ji sc) p conf file ∧
      ∀ {p' n' : Nat} (M' : Nat) {A : Nat → Csr R} {b : Spec.Mat R} {sc' : Nat → Sched}, 0 < p' →
        p' * n' = p * n → (∀ r, r < p' * p' → IsSched 0 n' (sc' r)) →
        Holds (fun A a => A.Represents n' a ∧ ∀ i, i < n' → n' ≤ (A.data.get i).alloc) p' n' A b →
        ∃ D', Calls p' (fun r => readFile (csrFiles f big0 jv ji sc') p' (p * n) M' file r (A r)) D' ∧
          Holds (fun A a => A.Represents n' a) p' n' D' a := by
  obtain ⟨B, file, hB, hw, h⟩ := (C67_csr_write_partial hp hn hD hfit f big0 jv ji sc hcan hr).2 hs
  refine ⟨file, h, fun {p' n'} M' {A b sc'} hp' hN hsc' hA => ?_⟩
  obtain ⟨file', Z, e1, e2, hZ⟩ := C27_csr_round_trip hB hk hv M'
  rw [hw] at e1
  injection e1 with e1
  subst e1
  obtain ⟨i, j, hi, hj, hne⟩ := hpos
  have hst : ∃ i j, i < p * n ∧ Z.Stored i j := ⟨i, j, hi, csr_exists_stored hZ hi hj hne⟩
  rw [← hN] at e2 hZ hst ⊢
  exact C67_csr_read_partial hb0 jv ji hsc' hp' e2 hZ hst hA

/-- A `4 × 4` matrix on a `2 × 2` grid, read on a grid of one. -/
example : ∃ k conf file D', WriteReaches (csrFiles fmtInt (fun x => decide (x ≠ 0)) (fun _ _ _ => 5)
      (fun _ _ _ => 9) fun _ => seqSched 0 2) 2 4 4 (fun _ => exC) (fun _ _ => True) k conf ∧
    Wrote (csrFiles fmtInt (fun x => decide (x ≠ 0)) (fun _ _ _ => 5) (fun _ _ _ => 9)
      fun _ => seqSched 0 2) 2 conf file ∧
    Calls 1 (fun r => readFile (csrFiles fmtInt (fun x => decide (x ≠ 0)) (fun _ _ _ => 5) (fun _ _ _ => 9)
      fun _ => seqSched 0 4) 1 4 4 file r (Csr.newZero 4 4)) D' ∧
    (D' 0).getElement 2 1 = .ok (exCm 0 1) := by
  obtain ⟨k, conf, h, hs⟩ := write_ends (csrFiles fmtInt (fun x => decide (x ≠ 0)) (fun _ _ _ => 5)
    (fun _ _ _ => 9) fun _ => seqSched 0 2) 2 4 4 (fun _ => exC) (can := fun _ _ => True) (fun _ _ _ => trivial)
  obtain ⟨file, h1, h2⟩ := C67_csr_round_trip_partial (n := 2) (a := exCE) (by omega) (by omega)
    (fun i j hi hj => (exCE_holds i j hi hj).1) (fun _ _ => by decide)
    fmtInt_kind (fun _ _ _ _ => fmtInt_exact _) ⟨0, 0, by decide⟩ (fun v hv => by simpa using hv)
    (fun _ _ _ => 5) (fun _ _ _ => 9) _ (fun _ _ _ => trivial) h hs
  obtain ⟨D', h3, h4⟩ := h2 (p' := 1) (n' := 4) 4 (A := fun _ => Csr.newZero 4 4)
    (sc' := fun _ => seqSched 0 4) (by omega) rfl (fun _ _ => isSched_seq 0 4)
    (b := Spec.zero) (fun i j _ _ => ⟨C32_csr_zero 4 4, fun i' hi' => by
      show 4 ≤ CsrRow.rowSpace 4
      decide⟩)
  exact ⟨k, conf, file, D', h, h1, h3, ((h4 0 0 (by omega) (by omega)).get 2 1 (by omega) (by omega)).trans
    (by decide)⟩

/-- **C67 fails for CSR files without entries**: a zero matrix that was written cannot be read; the
program ends with a failed assertion on every rank. -/
theorem C67_csr_read_empty {file : List Char} {f : Mm.Fmt R} (big0 : R → Bool) (jv : Nat → Nat → Nat → R)
    (ji : Nat → Nat → Nat → Nat) (sc : Nat → Sched) {Z : Csr R}
    (e : (Csr.newZero (p * n) M).readMm f file = .ok Z) (hZ : Z.Represents (p * n) a)
    (h0 : ∀ i, i < p * n → (Z.data.get i).nnz = 0) (r : Nat) (A : Csr R) :
    readFile (csrFiles f big0 jv ji sc) p (p * n) M file r A = .error := by
  have er : readRoot (csrFiles f big0 jv ji sc) (p * n) M file = .ok Z := e
  have hs : ∃ B, readStart (csrFiles f big0 jv ji sc) (p * n) M file r = .ok B := by
    unfold readStart
    split
    · exact ⟨Z, er⟩
    · exact ⟨_, rfl⟩
  obtain ⟨B, es⟩ := hs
  unfold readFile
  rw [es, Res.bind_ok, er, Res.bind_ok]
  have : (csrFiles f big0 jv ji sc).bcast r B Z = .error := C57_csr_bcast_empty hZ big0 h0
  rw [this]
  rfl

example : ∃ file, (Csr.newZero 4 4 : Csr Int).writeMm fmtInt = .ok file ∧
    ∀ r A, readFile (csrFiles fmtInt (fun x => decide (x ≠ 0)) (fun _ _ _ => 5) (fun _ _ _ => 9)
      fun _ => seqSched 0 2) 2 4 4 file r A = .error :=
  ⟨_, Csr.writeMm_eq (C32_csr_zero 4 4).wf fmtInt, fun r A =>
    C67_csr_read_empty (p := 2) (n := 2) (Z := Csr.newZero 4 4) _ _ _ _
    (Csr.readMm_eq fmtInt_kind word_general (Csr.newZero 4 4) 4 [] (fun _ h => by simp at h))
    (C32_csr_zero 4 4) (by decide) r A⟩

/-- **C67 fails for CSR rows wider than the rows of a new matrix**: rank 0 writes beyond the end of the
row it receives into (C57), in every execution.  Two by two tiles of `11 × 11` with a full row, in a
distributed matrix with `M = 2`. -/
theorem C67_csr_write_overflow :
    Holds (fun A a => A.Represents 11 a) 2 11 (fun _ => exWide)
      (fun i j => if i % 11 = 0 ∧ j % 11 < 11 then 1 else 0) ∧
    ∀ (can : CConf (Res (Csr Int)) (Csr Int) → Nat → Prop) (k : Nat) (conf : CConf (Res (Csr Int)) (Csr Int)),
      WriteFair can →
      WriteReaches (csrFiles fmtInt (fun x => decide (x ≠ 0)) (fun _ _ _ => 5) (fun _ _ _ => 9)
        fun _ => seqSched 0 11) 2 22 2 (fun _ => exWide) can k conf →
      WriteStuck (csrFiles fmtInt (fun x => decide (x ≠ 0)) (fun _ _ _ => 5) (fun _ _ _ => 9)
        fun _ => seqSched 0 11) 2 22 2 (fun _ => exWide) can conf →
      conf.st = .ub := by
  refine ⟨fun i j _ _ => C57_csr_recv_overflow.1.congr fun r s hr hs => ?_, fun can k conf hcan hr hs => ?_⟩
  · unfold tile
    beta_reduce
    rw [Nat.mul_add_mod', Nat.mul_add_mod', Nat.mod_eq_of_lt hr, Nat.mod_eq_of_lt hs]
  · exact ((write_correct (s := .ub) (Res.eq_ub_of_isUb (by decide +kernel)) hcan hr).2 hs).2

/-- **C67 fails for CSR local matrices with less space in their rows**: an `11 × 11` file with a full row
cannot be read into a matrix made with `M = 2`, although the rows of CSR matrices grow. -/
theorem C67_csr_read_full : ∃ file, exWide.writeMm fmtInt = .ok file ∧
    readFile (csrFiles fmtInt (fun x => decide (x ≠ 0)) (fun _ _ _ => 5) (fun _ _ _ => 9)
      fun _ => seqSched 0 11) 1 11 2 file 0 (Csr.newZero 11 2) = .error :=
  have h := Res.exists_okAnd (r := exWide.writeMm fmtInt) (p := fun file =>
    (readFile (csrFiles fmtInt (fun x => decide (x ≠ 0)) (fun _ _ _ => 5) (fun _ _ _ => 9)
      fun _ => seqSched 0 11) 1 11 2 file 0 (Csr.newZero 11 2)).isError) (by decide +kernel)
  h.imp fun _ h => ⟨h.1, Res.eq_error_of_isError h.2⟩

end Bml.Props
