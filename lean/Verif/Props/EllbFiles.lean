import Verif.Dist.EllbFiles
import Verif.Props.Files

/-!
# Property C67: files of distributed block-ELLPACK matrices

As in `Props/Files.lean`; `g` has the block sizes `b` in force, whose sum is the size `n` of the local
matrices.  `bml_write_bml_matrix` and `bml_read_bml_matrix` make the matrix for the whole with these
sizes, once for every column of the grid.
-/

namespace Bml.Props

open Dist

variable {R : Type} [CommRing R] {g : EllB.Glob} {b : Arr Nat} {p n M : Nat} {a : Spec.Mat R}

/-- **C67 (partial)**, block-ELLPACK local matrices, writing: every execution ends, and the file is the one
that `bml_write_bml_matrix` writes for a sequential matrix with all elements.  Missing: tiles whose stored
blocks have more than `n (M / p)` elements; there the claim is false, see `C67_ellblock_write_overflow`. -/
theorem C67_ellblock_write_partial {D : Nat → EllB R} (hg : g.Set n b) (hpos : ∀ k, k < g.nb → 0 < b.get k)
    (hp : 0 < p) (hn : 0 < n) (hM : M ≤ p * n) (hD : Holds (BlockTile g b n (M / p)) p n D a)
    (hfit : ∀ k, 0 < k → k < p * p → (D k).stored ≤ n * (M / p)) (f : Mm.Fmt R) (sc : Nat → Sched)
    (junk : Nat → Nat → R) {can : CConf (Res (EllB R)) (EllB R) → Nat → Prop} (hcan : WriteFair can) {k : Nat}
    {conf : CConf (Res (EllB R)) (EllB R)}
    (hr : WriteReaches (ellbFiles g p D f sc junk) p (p * n) M D can k conf) : k ≤ 2 * (p * p - 1) ∧
      (WriteStuck (ellbFiles g p D f sc junk) p (p * n) M D can conf →
        ∃ (B : EllB R) (file : List Char), B.Represents (p * n) a ∧ B.writeMm f = .ok file ∧
          Wrote (ellbFiles g p D f sc junk) p conf file) := by
  obtain ⟨B, e, hB⟩ := block_write hg hpos hp hn hM hD hfit f sc junk
  obtain ⟨L, h⟩ := EllB.represents_iff.1 hB.rep
  have h' := h.congr (a' := a) fun i j hi hj => tilesTo_all a _ hi hj
  obtain ⟨h1, h2⟩ := write_correct e hcan hr
  refine ⟨h1, fun hs => ⟨B, _, EllB.represents_iff.2 ⟨L, h'⟩, h'.writeMm_eq (Nat.mul_pos hp hn) f, (h2 hs).1, ?_⟩⟩
  rw [(h2 hs).2]
  exact h'.writeMm_eq (Nat.mul_pos hp hn) f

/-- **C67 fails for block-ELLPACK tiles with larger stored blocks**: whenever a tile other than that of rank 0
has more than `n (M / p)` elements in its stored blocks, the program writes beyond the end of the buffer of
the message (C57), in every execution. -/
theorem C67_ellblock_write_overflow {D : Nat → EllB R} (hg : g.Set n b) (hpos : ∀ k, k < g.nb → 0 < b.get k)
    (hp : 0 < p) (hn : 0 < n) (hM : M ≤ p * n) (hD : Holds (BlockTile g b n (M / p)) p n D a)
    (hbig : ∃ k, 0 < k ∧ k < p * p ∧ n * (M / p) < (D k).stored) (f : Mm.Fmt R) (sc : Nat → Sched)
    (junk : Nat → Nat → R) {can : CConf (Res (EllB R)) (EllB R) → Nat → Prop} (hcan : WriteFair can) {k : Nat}
    {conf : CConf (Res (EllB R)) (EllB R)}
    (hr : WriteReaches (ellbFiles g p D f sc junk) p (p * n) M D can k conf)
    (hs : WriteStuck (ellbFiles g p D f sc junk) p (p * n) M D can conf) : conf.st = .ub :=
  ((write_correct (block_write_ub hg hpos hp hn hM hD hbig f sc junk) hcan hr).2 hs).2

/-- **C67 (partial)**, block-ELLPACK local matrices, reading: every rank gets its tile of what
`bml_read_bml_matrix` reads into an empty sequential matrix with the repeated block sizes, if all blocks have
the same size and a block row has room for all blocks.  Missing: files with more than `N M` elements in the
stored blocks, where the claim is false (`C67_ellblock_read_overflow`), block sizes that differ, and matrices
with less room. -/
theorem C67_ellblock_read_partial {A : Nat → EllB R} {file : List Char} {f : Mm.Fmt R} {sc : Nat → Sched}
    (junk : Nat → Nat → R) {Z : EllB R} (hg : g.Set n b) {s : Nat} (hs0 : 0 < s)
    (hs : ∀ k, k < g.nb → b.get k = s) (hw : g.nb ≤ g.mb) (hp : 0 < p) (hM : M ≤ p * n)
    (e : (bigEmpty g b p n M : EllB R).readMm f file = .ok Z) (hS : EllB.Same (bigEmpty g b p n M : EllB R) Z)
    (hZ : Z.Represents (p * n) a) (hfit : Z.stored ≤ p * n * M)
    (hsc : ∀ r, r < p * p → IsSched 0 g.nb (sc r)) {x : Spec.Mat R}
    (hA : Holds (BlockTile g b n (M / p)) p n A x) (hC : ∀ r, r < p * p → (A r).Clean) :
    ∃ D', Calls p (fun r => readFile (ellbFiles g p A f sc junk) p (p * n) M file r (A r)) D' ∧
      Holds (fun A a => A.Represents n a) p n D' a := by
  have h0 := hA 0 0 hp hp
  rw [show rankOf p 0 0 = 0 by simp [rankOf]] at h0
  refine calls_of hp fun i j hi hj => ?_
  have := block_read (junk := junk) hg hs0 hs hw hp hM ⟨_, h0⟩ e hS hZ hfit (rankOf_lt hi hj) (hA i j hi hj)
    (hC _ (rankOf_lt hi hj)) (hsc _ (rankOf_lt hi hj))
  rwa [prow_rankOf hj, pcol_rankOf hj] at this

/-- **C67 fails for block-ELLPACK files with larger stored blocks**: if the matrix that rank 0 reads has more
than `N M` elements in its stored blocks, the program writes beyond the end of the buffer of the broadcast. -/
theorem C67_ellblock_read_overflow {A : Nat → EllB R} {file : List Char} {f : Mm.Fmt R} (sc : Nat → Sched)
    (junk : Nat → Nat → R) {Z : EllB R} (hg : g.Set n b) (hp : 0 < p) (hM : M ≤ p * n)
    (e : (bigEmpty g b p n M : EllB R).readMm f file = .ok Z) (hS : EllB.Same (bigEmpty g b p n M : EllB R) Z)
    (hZ : Z.Represents (p * n) a) (hbig : p * n * M < Z.stored) {x : Spec.Mat R}
    (hA : Holds (BlockTile g b n (M / p)) p n A x) {i j : Nat} (hi : i < p) (hj : j < p) :
    readFile (ellbFiles g p A f sc junk) p (p * n) M file (rankOf p i j) (A (rankOf p i j)) = .ub := by
  have h0 := hA 0 0 hp hp
  rw [show rankOf p 0 0 = 0 by simp [rankOf]] at h0
  exact block_read_ub sc junk hg hp hM ⟨_, h0⟩ e hS hZ hbig ⟨_, hA i j hi hj⟩

/-- **C67 (partial)**, block-ELLPACK local matrices made with `M = N`: a matrix that is written and read on the
same grid is the same, in every execution.  Missing: smaller `M`, block sizes that differ, less room, other
grids. -/
theorem C67_ellblock_round_trip_partial {D : Nat → EllB R} (hg : g.Set n b) {s : Nat} (hs0 : 0 < s)
    (hs : ∀ k, k < g.nb → b.get k = s) (hw : g.nb ≤ g.mb) (hp : 0 < p) (hn : 0 < n)
    (hD : Holds (BlockTile g b n n) p n D a) {f : Mm.Fmt R} (hk : Mm.Word f.kind)
    (hv : ∀ i j, i < p * n → j < p * n → f.Exact (a i j)) (junk : Nat → Nat → R) {sc : Nat → Sched}
    (hsc : ∀ r, r < p * p → IsSched 0 g.nb (sc r))
    {can : CConf (Res (EllB R)) (EllB R) → Nat → Prop} (hcan : WriteFair can) {k : Nat}
    {conf : CConf (Res (EllB R)) (EllB R)}
    (hr : WriteReaches (ellbFiles g p D f sc junk) p (p * n) (p * n) D can k conf)
    (hst : WriteStuck (ellbFiles g p D f sc junk) p (p * n) (p * n) D can conf) :
    ∃ file, Wrote (ellbFiles g p D f sc junk) p conf file ∧
      ∀ {A : Nat → EllB R} {x : Spec.Mat R}, Holds (BlockTile g b n n) p n A x →
        (∀ r, r < p * p → (A r).Clean) →
        ∃ D', Calls p (fun r => readFile (ellbFiles g p A f sc junk) p (p * n) (p * n) file r (A r)) D' ∧
          Holds (fun A a => A.Represents n a) p n D' a := by
  have hN : p * n / p = n := Nat.mul_div_cancel_left n hp
  have hpos : ∀ k, k < g.nb → 0 < b.get k := fun k hk => by rw [hs k hk]; exact hs0
  have hD' : Holds (BlockTile g b n (p * n / p)) p n D a := by rw [hN]; exact hD
  obtain ⟨B, e, hB⟩ := block_write hg hpos hp hn le_rfl hD' (fun k _ hk => by
    obtain ⟨q1, q2, q3⟩ := coords hk
    have := hD _ _ q1 q2
    rw [q3] at this
    have h1 := C57_ellblock_fits this.rep this.M
    rw [this.M] at h1
    rwa [hN]) f sc junk
  obtain ⟨L, h⟩ := EllB.represents_iff.1 hB.rep
  have h' := h.congr (a' := a) fun i j hi hj => tilesTo_all a _ hi hj
  obtain ⟨-, h2⟩ := write_correct e hcan hr
  obtain ⟨file, Z, e1, e2, -, hZ, hS⟩ := C27_ellblock_round_trip (Z := bigEmpty g b p n (p * n))
    (Nat.mul_pos hp hn) (EllB.represents_iff.2 ⟨L, h'⟩)
    (EllB.represents_iff.2 ⟨_, bigEmpty_rows hg⟩) EllB.empty_clean (fun _ _ => rfl) hB.same.NB.symm
    hB.same.bsize.symm (fun ib hib => by
      have := h.is.le ib hib
      rw [h.is.nz ib hib]
      have e2 : B.MB = g.mb * p := hB.same.MB
      rw [e2] at this
      exact this) (by
      have e3 : B.bsize.get = repSizes g.nb p b.get := by rw [hB.same.bsize]; rfl
      rw [e3]
      have := repSizes_at (bs := b.get) hp hg.nb
      rw [Nat.zero_mul, Nat.zero_add] at this
      rw [this]
      exact hg.small _ hg.nb) hk hv
  refine ⟨file, ⟨(h2 hst).1, ?_⟩, fun {A x} hA hC => ?_⟩
  · rw [(h2 hst).2]
    exact e1
  · have hA' : Holds (BlockTile g b n (p * n / p)) p n A x := by rw [hN]; exact hA
    have hf := C57_ellblock_fits hZ hS.M
    exact C67_ellblock_read_partial junk hg hs0 hs hw hp le_rfl e2 hS hZ (by rwa [show Z.M = p * n from hS.M] at hf)
      hsc hA' hC

/-! ## Examples -/

/-- The block sizes of `ebU`. -/
def ebFg : EllB.Glob := ⟨some ebU.bsize, 2, 2⟩

theorem ebFg_set : ebFg.Set 8 ebU.bsize :=
  ⟨rfl, by decide +kernel, by decide, by decide, by decide +kernel, by decide +kernel⟩

theorem ebF_holds {A : EllB Int} {x : Spec.Mat Int} (h : A.Represents 8 x) (hM : A.M = 8) (hNB : A.NB = 2)
    (hMB : A.MB = 2) (hbs : A.bsize = ebU.bsize) :
    Holds (BlockTile ebFg ebU.bsize 8 8) 2 8 (fun _ => A) fun i j => x (i % 8) (j % 8) := by
  intro i j _ _
  obtain ⟨L, h⟩ := EllB.represents_iff.1 h
  refine ⟨EllB.represents_iff.2 ⟨L, h.congr fun r s hr hs => ?_⟩, hM, hNB, hMB, hbs⟩
  unfold tile
  beta_reduce
  rw [Nat.mul_add_mod', Nat.mul_add_mod', Nat.mod_eq_of_lt hr, Nat.mod_eq_of_lt hs]

/-- Two by two copies of `ebU`, written and read into copies of an empty matrix. -/
example : ∃ k conf file D', WriteReaches (ellbFiles ebFg 2 (fun _ => ebU) fmtInt (fun _ => [(0, 1), (1, 0)])
      fun _ _ => 5) 2 16 16 (fun _ => ebU) (fun _ _ => True) k conf ∧
    Wrote (ellbFiles ebFg 2 (fun _ => ebU) fmtInt (fun _ => [(0, 1), (1, 0)]) fun _ _ => 5) 2 conf file ∧
    Calls 2 (fun r => readFile (ellbFiles ebFg 2 (fun _ => newB Int 8 8) fmtInt (fun _ => [(0, 1), (1, 0)])
      fun _ _ => 5) 2 16 16 file r (newB Int 8 8)) D' ∧ (D' 3).getElement 0 7 = .ok (ebUm 0 7) ∧ ebUm 0 7 ≠ 0 := by
  obtain ⟨k, conf, h, hs⟩ := write_ends (ellbFiles ebFg 2 (fun _ => ebU) fmtInt (fun _ => [(0, 1), (1, 0)])
    fun _ _ => 5) 2 16 16 (fun _ => ebU) (can := fun _ _ => True) (fun _ _ _ => trivial)
  obtain ⟨file, h1, h2⟩ := C67_ellblock_round_trip_partial (n := 8) (p := 2) (s := 4)
    (sc := fun _ => [(0, 1), (1, 0)]) ebFg_set (by decide)
    (fun k hk => ebU_bs k hk) (by decide) (by decide) (by decide) (ebF_holds ebU_spec.1 ebU_spec.2.2 rfl rfl rfl)
    fmtInt_kind (fun _ _ _ _ => fmtInt_exact _) (fun _ _ => 5)
    (fun _ _ => show List.Perm [1, 0] [0, 1] by decide) (fun _ _ _ => trivial) h hs
  obtain ⟨n1, n2, n3, -⟩ := newB_spec (R := Int) (N := 8) (M := 8) le_rfl (by decide)
  obtain ⟨D', h3, h4⟩ := h2 (A := fun _ => newB Int 8 8) (ebF_holds n1 n3 rfl rfl rfl) (fun _ _ => n2)
  exact ⟨k, conf, file, D', h, h1, h3, ((h4 1 1 (by omega) (by omega)).get 0 7 (by omega) (by omega)).trans
    (by decide), by decide⟩

/-- One element in each of two by two tiles of size 4, made for one element per row. -/
example : ∃ k conf, WriteReaches (ellbFiles ⟨some ebN.bsize, 1, 1⟩ 2 (fun _ => ebN) fmtInt
      (fun _ => [(0, 0)]) fun _ _ => 5) 2 8 2 (fun _ => ebN) (fun _ _ => True) k conf ∧ conf.st = .ub := by
  obtain ⟨k, conf, h, hs⟩ := write_ends (ellbFiles ⟨some ebN.bsize, 1, 1⟩ 2 (fun _ => ebN) fmtInt
    (fun _ => [(0, 0)]) fun _ _ => 5) 2 8 2 (fun _ => ebN) (can := fun _ _ => True) (fun _ _ _ => trivial)
  refine ⟨k, conf, h, C67_ellblock_write_overflow (n := 4) (b := ebN.bsize)
    (a := fun i j => mkBm [⟨1, 2, 7⟩] (i % 4) (j % 4))
    ⟨rfl, by decide +kernel, by decide, by decide, by decide +kernel, by decide +kernel⟩ (by decide +kernel)
    (by decide) (by decide) (by decide) (fun i j _ _ => ?_) ⟨1, by decide, by decide, by decide +kernel⟩ fmtInt _ _
    (fun _ _ _ => trivial) h hs⟩
  obtain ⟨L, h⟩ := EllB.represents_iff.1 ebN_spec.1
  refine ⟨EllB.represents_iff.2 ⟨L, h.congr fun r s hr hs => ?_⟩, ebN_spec.2, rfl, rfl, rfl⟩
  unfold tile
  beta_reduce
  rw [Nat.mul_add_mod', Nat.mul_add_mod', Nat.mod_eq_of_lt hr, Nat.mod_eq_of_lt hs]

/-- The matrix of size 8 with two blocks of size 4, made for two elements per row. -/
def ebBig : EllB Int := bigEmpty ⟨some ebN.bsize, 1, 1⟩ ebN.bsize 2 4 2

def ebBigA : EllB Int := match runB [(⟨0, 0, 1⟩ : BWrite Int), ⟨5, 5, 2⟩] ebBig with
  | .ok A => A
  | _ => ebBig

/-- A file with two elements, read into the tiles of the previous example. -/
example : ∃ file, ebBigA.writeMm fmtInt = .ok file ∧ ∀ i j, i < 2 → j < 2 →
    readFile (ellbFiles ⟨some ebN.bsize, 1, 1⟩ 2 (fun _ => ebN) fmtInt (fun _ => [(0, 0)]) fun _ _ => 5) 2 8 2
      file (rankOf 2 i j) ebN = .ub := by
  have hg : (⟨some ebN.bsize, 1, 1⟩ : EllB.Glob).Set 4 ebN.bsize :=
    ⟨rfl, by decide +kernel, by decide, by decide, by decide +kernel, by decide +kernel⟩
  have hz : ebBig.Represents 8 (fun _ _ => 0) := EllB.represents_iff.2 ⟨_, bigEmpty_rows hg⟩
  obtain ⟨A', eA, -, -, hA'⟩ := C38_history_full hz EllB.empty_clean (by decide +kernel)
    [(⟨0, 0, 1⟩ : BWrite Int), ⟨5, 5, 2⟩] (by decide)
  have hA : ebBigA = A' := by unfold ebBigA; rw [eA]
  rw [← hA] at hA'
  obtain ⟨file, Z, e1, e2, -, hZ, hS⟩ := C27_ellblock_round_trip (Z := ebBig) (by decide) hA' hz EllB.empty_clean
    (fun _ _ => rfl) (by decide +kernel) rfl (by decide +kernel) (by decide +kernel) fmtInt_kind
    (fun _ _ _ _ => fmtInt_exact _)
  obtain ⟨file', e3, e4⟩ := Res.exists_okAnd (r := ebBigA.writeMm fmtInt) (p := fun file =>
    Res.okAnd (fun Z : EllB Int => decide (16 < Z.stored)) (ebBig.readMm fmtInt file)) (by decide +kernel)
  rw [e1] at e3
  injection e3 with e3
  subst e3
  rw [e2] at e4
  refine ⟨file, e1, fun i j hi hj => C67_ellblock_read_overflow (A := fun _ => ebN) _ _ hg (by decide) (by decide) e2 hS
    hZ (of_decide_eq_true e4) (x := fun i j => mkBm [⟨1, 2, 7⟩] (i % 4) (j % 4)) (fun i j _ _ => ?_) hi hj⟩
  obtain ⟨L, h⟩ := EllB.represents_iff.1 ebN_spec.1
  refine ⟨EllB.represents_iff.2 ⟨L, h.congr fun r s hr hs => ?_⟩, ebN_spec.2, rfl, rfl, rfl⟩
  unfold tile
  beta_reduce
  rw [Nat.mul_add_mod', Nat.mul_add_mod', Nat.mod_eq_of_lt hr, Nat.mod_eq_of_lt hs]

end Bml.Props
