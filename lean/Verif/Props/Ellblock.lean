import Verif.Ellblock.Hist
import Verif.Wlp
import Mathlib.Tactic.IntervalCases

/-!
# Property theorems: the block-ELLPACK format (1)

`A.Represents N a` says that `A` is a well-formed `N × N` matrix and that `bml_get_element` returns
`a i j` for all `i, j < N`.  `A.Has ib jb`: block row `ib` holds a block for block column `jb`.
`A.Clean`: the pointer cells behind the stored blocks are NULL; true of every matrix built by the
constructors and kept by the writes below.  `off bs ib = bs 0 + … + bs (ib-1)` is where block `ib`
starts.  The global block sizes are a parameter `g`; `Glob.init` is the state at program start.
-/

namespace Bml.Props

open Bml

variable {R : Type} [CommRing R]

/-- What `bml_zero_matrix` returns at program start. -/
def newB (R : Type) (N M : Nat) : EllB R :=
  match EllB.zeroMatrix (R := R) EllB.Glob.init N M with
  | .ok (_, A) => A
  | _ => EllB.empty 0 0 0 0 ⟨0, fun _ => 0⟩

/-! ## C38 -/

/-- **C38**, block addresses: for any block sizes, every index below their sum has exactly one block
address, it is the one the code computes, and every block address is that of an index below the
sum. -/
theorem C38_block_address (bs : Arr Nat) {i : Nat} (hi : i < EllB.off bs.get bs.size) :
    (∃ ib ii, EllB.locate bs (bs.size + 1) 0 i = .ok (ib, ii) ∧ ib < bs.size ∧ ii < bs.get ib ∧
      EllB.off bs.get ib + ii = i ∧
      ∀ ib' ii', ib' < bs.size → ii' < bs.get ib' → EllB.off bs.get ib' + ii' = i →
        ib' = ib ∧ ii' = ii) ∧
    ∀ ib ii, ib < bs.size → ii < bs.get ib →
      EllB.off bs.get ib + ii < EllB.off bs.get bs.size := by
  refine ⟨?_, fun ib ii h1 h2 => EllB.off_lt h1 h2⟩
  obtain ⟨ib, ii, h1, h2, h3⟩ := EllB.off_surj bs.get bs.size i hi
  refine ⟨ib, ii, ?_, h1, h2, h3, fun ib' ii' _ h5 h6 => EllB.off_inj h5 h2 (h6.trans h3.symm)⟩
  have := EllB.locate_eq (bs := bs) h1 h2 ib 0 (bs.size + 1) (by omega) (by omega)
  rwa [EllB.off_zero, Nat.sub_zero, h3] at this

/-- Blocks of 3, 1 and 2; index 4 is the first of block 2. -/
example : EllB.locate ⟨3, fun k => if k = 0 then 3 else if k = 1 then 1 else 2⟩ 4 0 4 =
    .ok (2, 0) := by decide

/-- An index past the last row runs off the array of block sizes: `bml_set_element` does not check
it. -/
theorem C38_set_element_out_of_range {N : Nat} {A : EllB R} {a : Spec.Mat R}
    (hA : A.Represents N a) {i : Nat} (hi : N ≤ i) (j : Nat) (v : R) :
    A.setElement i j v = .ub := by
  obtain ⟨L, h⟩ := EllB.represents_iff.1 hA
  have hf : A.find i = .ub := by
    unfold EllB.find
    refine EllB.locate_ub A.bsize.size 0 _ i (by omega) ?_
    rw [h.is.bs_size, h.N_eq, EllB.off_zero]
    omega
  unfold EllB.setElement
  rw [hf]
  rfl

/-- **C38**, one write.  `(ib,ii)` and `(jb,jj)` are the block addresses of `i` and `j`.  If the
block is stored, or the block row is not full, the write succeeds, is read back, and changes no other
element.  If the block row is full and does not hold the block, the call is an error. -/
theorem C38_set_element {N : Nat} {A : EllB R} {a : Spec.Mat R} (hA : A.Represents N a)
    (hC : A.Clean) {ib ii jb jj : Nat} (hi : ib < A.NB) (hii : ii < A.bsize.get ib) (hj : jb < A.NB)
    (hjj : jj < A.bsize.get jb) (v : R) :
    (A.Has ib jb ∨ A.nnzb.get ib < A.MB →
      ∃ A', A.setElement (EllB.off A.bsize.get ib + ii) (EllB.off A.bsize.get jb + jj) v = .ok A' ∧
        A'.Clean ∧ A'.M = A.M ∧
        A'.Represents N
          (Spec.set a (EllB.off A.bsize.get ib + ii) (EllB.off A.bsize.get jb + jj) v)) ∧
    (¬ A.Has ib jb ∧ A.nnzb.get ib = A.MB →
      A.setElement (EllB.off A.bsize.get ib + ii) (EllB.off A.bsize.get jb + jj) v = .error) := by
  obtain ⟨L, h⟩ := EllB.represents_iff.1 hA
  constructor
  · intro hor
    obtain ⟨A', e, L', hw⟩ := Res.wp_exists (Res.wp_mono' (E' := False)
      (h.wp_setElement hi hj hii hjj v) (by
        rintro ⟨h1, h2⟩
        rcases h2 with h2 | h2
        · rcases hor with h3 | h3
          · exact h1 ((h.has_iff hi).1 h3)
          · rw [h.is.nz ib hi] at h3; omega
        · exact h2 hC) (fun _ hq => hq))
    exact ⟨A', e, hw.clean hC, hw.same.M, EllB.represents_iff.2 ⟨L', hw.rows⟩⟩
  · rintro ⟨h1, h2⟩
    exact h.setElement_full hi hj hii hjj (fun hm => h1 ((h.has_iff hi).2 hm))
      (by rw [← h.is.nz ib hi]; exact h2) v

/-- One write. -/
structure BWrite (R : Type) where
  i : Nat
  j : Nat
  v : R

/-- A sequence of `bml_set_element`. -/
def runB (ws : List (BWrite R)) (A : EllB R) : Res (EllB R) :=
  forList ws A fun w A => A.setElement w.i w.j w.v

/-- **C38**, histories: any sequence of writes in range either leaves in every element the value of
the last write to it, or is an error; there is no undefined behaviour. -/
theorem C38_history {N : Nat} (ws : List (BWrite R)) : ∀ {A : EllB R} {a : Spec.Mat R},
    A.Represents N a → A.Clean → (∀ w ∈ ws, w.i < N ∧ w.j < N) →
    (runB ws A).wp (A.MB < A.NB) (fun A' => A'.Clean ∧ A'.M = A.M ∧
      A'.Represents N (ws.foldl (fun a w => Spec.set a w.i w.j w.v) a)) := by
  induction ws with
  | nil => intro A a hA hC _; exact ⟨hC, rfl, hA⟩
  | cons w ws ih =>
    intro A a hA hC hw
    obtain ⟨h1, h2⟩ := hw w (by simp)
    obtain ⟨L, h⟩ := EllB.represents_iff.1 hA
    obtain ⟨ib, ii, q1, q2, q3⟩ := h.surj h1
    obtain ⟨jb, jj, q4, q5, q6⟩ := h.surj h2
    have hstep := h.wp_setElement q1 q4 q2 q5 w.v
    rw [q3, q6] at hstep
    unfold runB
    rw [forList_cons, Res.wp_bind]
    refine Res.wp_mono' hstep ?_ ?_
    · rintro ⟨hn, hc⟩
      rcases hc with hc | hc
      · by_contra hlt
        have := h.card_le q1 (by omega) q4 hn
        omega
      · exact absurd hC hc
    · rintro A' ⟨L', hw'⟩
      refine Res.wp_mono' (ih (EllB.represents_iff.2 ⟨L', hw'.rows⟩) (hw'.clean hC)
        (fun w' hm => hw w' (by simp [hm]))) ?_ ?_
      · rw [hw'.same.MB, hw'.same.NB]; exact id
      · rintro A'' ⟨r1, r2, r3⟩
        exact ⟨r1, r2.trans hw'.same.M, r3⟩

/-- **C38**, histories on a matrix with room for all block columns (`MB = NB`, as for `M = N`): they
always succeed. -/
theorem C38_history_full {N : Nat} {A : EllB R} {a : Spec.Mat R} (hA : A.Represents N a)
    (hC : A.Clean) (hMB : A.NB ≤ A.MB) (ws : List (BWrite R)) (hw : ∀ w ∈ ws, w.i < N ∧ w.j < N) :
    ∃ A', runB ws A = .ok A' ∧ A'.Clean ∧ A'.M = A.M ∧
      A'.Represents N (ws.foldl (fun a w => Spec.set a w.i w.j w.v) a) :=
  Res.wp_exists (Res.wp_mono' (E' := False) (C38_history ws hA hC hw) (by omega) (fun _ h => h))

/-- `bml_zero_matrix` at program start. -/
theorem newB_spec {N M : Nat} (hM : M ≤ N) (h0 : 0 < M) :
    (newB R N M).Represents N (fun _ _ => 0) ∧ (newB R N M).Clean ∧ (newB R N M).M = M ∧
      ∃ g, EllB.zeroMatrix (R := R) EllB.Glob.init N M = .ok (g, newB R N M) := by
  obtain ⟨g', b, e, hs, -⟩ := EllB.zeroMatrix_eq (R := R) (g := EllB.Glob.init) (N := N) (M := M)
    (Or.inl ⟨rfl, h0⟩) hM
  unfold newB
  rw [e]
  exact ⟨EllB.represents_iff.2 ⟨_, hs.empty_rows M⟩, EllB.empty_clean, rfl, g', rfl⟩

/-- A 5 × 5 matrix: the blocks are 4 and 1 wide. -/
def ebAw : List (BWrite Int) := [⟨0, 4, 7⟩, ⟨4, 4, 2⟩, ⟨1, 2, 3⟩, ⟨0, 4, 5⟩, ⟨4, 0, -1⟩]

def ebA : EllB Int :=
  match runB ebAw (newB Int 5 5) with
  | .ok A => A
  | _ => newB Int 5 5

def ebAm : Spec.Mat Int := ebAw.foldl (fun a w => Spec.set a w.i w.j w.v) (fun _ _ => 0)

theorem ebA_spec : ebA.Represents 5 ebAm ∧ ebA.Clean ∧ ebA.M = 5 := by
  obtain ⟨h1, h2, h3, -⟩ := newB_spec (R := Int) (N := 5) (M := 5) le_rfl (by decide)
  obtain ⟨A', e, c1, c2, c3⟩ := C38_history_full h1 h2 (by decide) ebAw (by decide)
  unfold ebA
  rw [e]
  exact ⟨c3, c1, c2⟩

/-- The history of `ebA` writes `(0,4)` twice; the second value stays. -/
example : ebA.getElement 0 4 = .ok 5 ∧ ebA.getElement 1 2 = .ok 3 ∧ ebA.getElement 3 3 = .ok 0 :=
  ⟨ebA_spec.1.get 0 4 (by decide) (by decide), ebA_spec.1.get 1 2 (by decide) (by decide),
    ebA_spec.1.get 3 3 (by decide) (by decide)⟩

example : ebA.Has 0 1 ∧ ¬ (newB Int 5 5).Has 0 1 := by
  constructor
  · exact ⟨0, by decide, by decide⟩
  · rintro ⟨jp, h, -⟩
    have h' : jp < 0 := h
    omega

/-- A full block row: 17 rows, four blocks per block row, five block columns. -/
theorem C38_full_row_example : runB ((List.range 5).map fun k => (⟨0, 4 * k, 1⟩ : BWrite Int))
    (newB Int 17 16) = .error :=
  Res.eq_error_of_isError (by decide +kernel)

/-- **C34** for block-ELLPACK: an index outside `[0,N)`, negative ones included, is an error. -/
theorem C34_ellblock_out_of_range (A : EllB R) {i j : Int}
    (h : i < 0 ∨ (A.N : Int) ≤ i ∨ j < 0 ∨ (A.N : Int) ≤ j) : A.getElement i j = .error := by
  unfold EllB.getElement
  by_cases h1 : i < 0 ∨ (A.N : Int) ≤ i
  · rw [if_pos h1]
  · rw [if_neg h1, if_pos (by omega)]

example : ebA.getElement 5 0 = .error ∧ ebA.getElement 0 (-1) = .error :=
  ⟨C34_ellblock_out_of_range _ (by right; left; decide), C34_ellblock_out_of_range _ (by omega)⟩

/-! ## C39 -/

/-- **C39 does not hold.**  The block sizes chosen for the first matrix are kept for all later ones:
after a 4 × 4 matrix was created, `bml_zero_matrix(8, 4)` returns a 4 × 4 matrix. -/
theorem C39_leak_witness : ∃ g A, EllB.zeroMatrix (R := Int) EllB.Glob.init 4 4 = .ok (g, A) ∧
    ∃ g' B, EllB.zeroMatrix (R := Int) g 8 4 = .ok (g', B) ∧ B.N = 4 ∧
      B.setElement 7 7 1 = .ub :=
  ⟨_, _, rfl, _, _, rfl, rfl, rfl⟩

/-- In general, the second matrix has the size of the first, whatever size is asked for. -/
theorem C39_leak {N M : Nat} (hM : M ≤ N) (h0 : 0 < M) {g : EllB.Glob} {A : EllB R}
    (e : EllB.zeroMatrix (R := R) EllB.Glob.init N M = .ok (g, A)) (N' M' : Nat) (hM' : M' ≤ N')
    (hle : M' ≤ N) : ∃ B, EllB.zeroMatrix (R := R) g N' M' = .ok (g, B) ∧ B.N = N := by
  obtain ⟨g', b, e', hs, -⟩ := EllB.zeroMatrix_eq (R := R) (g := EllB.Glob.init) (N := N) (M := M)
    (Or.inl ⟨rfl, h0⟩) hM
  rw [e'] at e
  cases e
  unfold EllB.zeroMatrix
  rw [if_neg (not_not.2 hM')]
  have : EllB.getBlockSizes g N' M' = .ok (g, b) := by
    unfold EllB.getBlockSizes
    rw [hs.bsize]
  rw [this, Res.bind_ok]
  simp only
  rw [hs.blockMatrix hle]
  exact ⟨_, rfl, rfl⟩

/-- **C39**, partial: `bml_zero_matrix(N, M)` gives an `N × N` zero matrix if it is the first matrix,
or if the block sizes in force add up to `N`.  Missing: the case of block sizes left over from a
matrix of another size (`C39_leak`). -/
theorem C39_zero_matrix_partial {g : EllB.Glob} {N M : Nat} (hM : M ≤ N) (hg : g.For N M) :
    ∃ g' A, EllB.zeroMatrix (R := R) g N M = .ok (g', A) ∧ g'.For N M ∧ A.N = N ∧ A.M = M ∧
      A.Clean ∧ A.Represents N (fun _ _ => 0) := by
  obtain ⟨g', b, e, hs, -⟩ := EllB.zeroMatrix_eq (R := R) hg hM
  exact ⟨g', _, e, hs.for M, rfl, rfl, EllB.empty_clean,
    EllB.represents_iff.2 ⟨_, hs.empty_rows M⟩⟩

/-- **C39**, histories: as long as only matrices of one size `N` are created, all of them have `N`
rows. -/
theorem C39_history_partial {N : Nat} (Ms : List Nat) (hM : ∀ M ∈ Ms, 0 < M ∧ M ≤ N) :
    ∃ s, forList Ms (EllB.Glob.init, ([] : List (EllB R))) (fun M s => do
        let (g, A) ← EllB.zeroMatrix (R := R) s.1 N M
        pure (g, s.2 ++ [A])) = .ok s ∧ s.2.map (fun A => (A.N, A.M)) = Ms.map (fun M => (N, M)) ∧
      ∀ A ∈ s.2, A.Represents N (fun _ _ => 0) := by
  suffices ∀ (Ms : List Nat), (∀ M ∈ Ms, 0 < M ∧ M ≤ N) → ∀ (g : EllB.Glob) (l : List (EllB R)),
      (g = EllB.Glob.init ∨ ∃ b, g.Set N b) → (∀ A ∈ l, A.Represents N (fun _ _ => 0)) →
      ∃ s, forList Ms (g, l) (fun M s => do
        let (g, A) ← EllB.zeroMatrix (R := R) s.1 N M
        pure (g, s.2 ++ [A])) = .ok s ∧
        s.2.map (fun A => (A.N, A.M)) = l.map (fun A => (A.N, A.M)) ++ Ms.map (fun M => (N, M)) ∧
        ∀ A ∈ s.2, A.Represents N (fun _ _ => 0) by
    obtain ⟨s, h1, h2, h3⟩ := this Ms hM EllB.Glob.init [] (Or.inl rfl) (by simp)
    exact ⟨s, h1, by simpa using h2, h3⟩
  intro Ms
  induction Ms with
  | nil => intro _ g l _ hl; exact ⟨_, rfl, by simp, hl⟩
  | cons M Ms ih =>
    intro hM g l hg hl
    obtain ⟨h0, h1⟩ := hM M (by simp)
    have hfor : g.For N M := by
      rcases hg with rfl | ⟨b, hb⟩
      · exact Or.inl ⟨rfl, h0⟩
      · exact hb.for M
    obtain ⟨g', b, e, hs, -⟩ := EllB.zeroMatrix_eq (R := R) hfor h1
    have hz := EllB.represents_iff.2 ⟨_, hs.empty_rows (R := R) M⟩
    obtain ⟨s, e1, e2, e3⟩ := ih (fun M' h' => hM M' (by simp [h'])) g'
      (l ++ [EllB.empty N M g'.nb g'.mb ⟨g'.nb, b.get⟩]) (Or.inr ⟨b, hs⟩) (by
        intro A hA
        rcases List.mem_append.1 hA with hA | hA
        · exact hl A hA
        · rw [List.mem_singleton.1 hA]; exact hz)
    refine ⟨s, ?_, ?_, e3⟩
    · rw [forList_cons]
      simp only
      rw [e, Res.bind_ok]
      exact e1
    · rw [e2]
      simp [EllB.empty]

example : ∃ s, forList [3, 7, 1] (EllB.Glob.init, ([] : List (EllB Int))) (fun M s => do
        let (g, A) ← EllB.zeroMatrix (R := Int) s.1 9 M
        pure (g, s.2 ++ [A])) = .ok s ∧ s.2.map (fun A => (A.N, A.M)) = [(9, 3), (9, 7), (9, 1)] := by
  obtain ⟨s, h, h', -⟩ := C39_history_partial (R := Int) (N := 9) [3, 7, 1] (by decide)
  exact ⟨s, h, h'⟩

/-! ## C52: constructors -/

/-- **C52**, identity. -/
theorem C52_identity {g : EllB.Glob} {N M : Nat} (hM : M ≤ N) (hg : g.For N M) :
    ∃ g' A, EllB.identityMatrix (R := R) g N M = .ok (g', A) ∧ A.N = N ∧ A.M = M ∧ A.Clean ∧
      A.Represents N Spec.one := by
  obtain ⟨⟨g', A⟩, e, L, b, -, -, h1, h2, h3⟩ :=
    Res.wp_exists (EllB.wp_identityMatrix (R := R) (E := False) hg hM)
  exact ⟨g', A, e, h1.dim, h3.M, h2, EllB.represents_iff.2 ⟨L, h1⟩⟩

example : ∃ g' A, EllB.identityMatrix (R := Int) EllB.Glob.init 6 2 = .ok (g', A) ∧
    A.getElement 5 5 = .ok 1 ∧ A.getElement 5 4 = .ok 0 := by
  obtain ⟨g', A, e, -, -, -, h⟩ := C52_identity (R := Int) (g := EllB.Glob.init) (N := 6) (M := 2)
    (by decide) (Or.inl ⟨rfl, by decide⟩)
  exact ⟨g', A, e, h.get 5 5 (by decide) (by decide), h.get 5 4 (by decide) (by decide)⟩

/-- The band of `bml_banded_matrix(N, M)`: in row `i` the columns from `i - M/2` (at least 0) up to
`i - M/2 + M` (at most `N`). -/
def inBand (N M i j : Nat) : Prop := (i : Int) - M / 2 ≤ j ∧ (j : Int) < i - M / 2 + M ∧ j < N

/-- **C52**, banded, partial: the band is filled with the drawn values and everything else is zero, if
a block row has room for all blocks (`NB ≤ MB`); otherwise the call may be an error.  Missing: with
the default block sizes `bml_banded_matrix` can fail for want of room, `C52_banded_witness`. -/
theorem C52_banded_partial {g : EllB.Glob} {N M : Nat} (hM : M ≤ N) (hg : g.For N M)
    (rnd : Nat → Nat → R) :
    ∃ g' b, EllB.getBlockSizes g N M = .ok (g', b) ∧
      (EllB.bandedMatrix g N M rnd).wp (g'.mb < g'.nb) (fun r => r.2.N = N ∧ r.2.M = M ∧ r.2.Clean ∧
        r.2.WF ∧ ∀ i j : Nat, i < N → j < N →
          (inBand N M i j → r.2.getElement i j = .ok (rnd i j)) ∧
          (¬ inBand N M i j → r.2.getElement i j = .ok 0)) := by
  obtain ⟨g', b, e, h⟩ := EllB.wp_bandedMatrix hg hM rnd
  refine ⟨g', b, e, Res.wp_mono h ?_⟩
  rintro r ⟨-, L, h1, h2, h3⟩
  refine ⟨h1.dim, h3.M, h2, h1.wf, fun i j hi hj => ?_⟩
  rw [h1.get hi hj]
  unfold EllB.bandSpec
  have : (i - M / 2 ≤ j ∧ j < (if i + M ≤ N + M / 2 then i + M - M / 2 else N)) ↔ inBand N M i j := by
    unfold inBand
    split <;> omega
  constructor
  · intro hb; rw [if_pos (this.2 hb)]
  · intro hb; rw [if_neg (fun hc => hb (this.1 hc))]

/-- `M = N`: always room. -/
example : ∃ r, EllB.bandedMatrix (R := Int) EllB.Glob.init 9 9 (fun i j => (i + j : Int)) = .ok r ∧
    r.2.getElement 8 4 = .ok 12 ∧ r.2.getElement 8 3 = .ok 0 := by
  obtain ⟨g', b, e, h⟩ := C52_banded_partial (R := Int) (g := EllB.Glob.init) (N := 9) (M := 9)
    le_rfl (Or.inl ⟨rfl, by decide⟩) (fun i j => (i + j : Int))
  cases e
  obtain ⟨r, e, -, -, -, -, h'⟩ := Res.wp_exists (Res.wp_mono' (E' := False) h (by decide)
    (fun _ h => h))
  exact ⟨r, e, (h' 8 4 (by decide) (by decide)).1 (by unfold inBand; decide),
    (h' 8 3 (by decide) (by decide)).2 (by unfold inBand; decide)⟩

/-- `bml_banded_matrix(17, 12)` with the default block sizes is an error: four blocks fit into a block
row, but a band of width 12 meets five. -/
theorem C52_banded_witness :
    EllB.bandedMatrix (R := Int) EllB.Glob.init 17 12 (fun _ _ => 1) = .error :=
  Res.eq_error_of_isError (by decide +kernel)

omit [CommRing R] in
/-- `bml_noinit_matrix` fails whenever no block sizes were set before, for all `N`, `M`. -/
theorem C52_noinit_error (N M : Nat) :
    EllB.noinitMatrix (R := R) EllB.Glob.init N M = .error := rfl

/-- **C52**, `bml_noinit_matrix` once block sizes adding up to `N` are in force. -/
theorem C52_noinit_partial {g : EllB.Glob} {N M : Nat} {b : Arr Nat} (hM : M ≤ N)
    (hg : g.Set N b) : ∃ A, EllB.noinitMatrix (R := R) g N M = .ok (g, A) ∧ A.N = N ∧ A.M = M ∧
      A.Clean ∧ A.Represents N (fun _ _ => 0) := by
  unfold EllB.noinitMatrix
  have : EllB.getBlockSizes g N 0 = .ok (g, b) := by
    unfold EllB.getBlockSizes
    rw [hg.bsize]
  rw [this, Res.bind_ok]
  simp only
  rw [hg.blockMatrix hM]
  exact ⟨_, rfl, rfl, rfl, EllB.empty_clean, EllB.represents_iff.2 ⟨_, hg.empty_rows M⟩⟩

example : (⟨some ⟨2, fun k => k + 1⟩, 2, 2⟩ : EllB.Glob).Set 3 ⟨2, fun k => k + 1⟩ :=
  ⟨rfl, rfl, by decide, by decide, by intro ib h; simp only at h ⊢; omega, by decide⟩

/-! ## C53: clear -/

/-- **C53**, partial: after `bml_clear` every element reads zero, `N` and `M` are kept.  Missing: the
matrix cannot be filled again, `C53_clear_then_set`. -/
theorem C53_clear_partial {N : Nat} {A : EllB R} {a : Spec.Mat R} (hA : A.Represents N a) :
    ∃ A', A.clear = .ok A' ∧ A'.N = N ∧ A'.M = A.M ∧ A'.Represents N (fun _ _ => 0) := by
  obtain ⟨L, h⟩ := EllB.represents_iff.1 hA
  obtain ⟨A', e, hI, hs, -, -⟩ := Res.wp_exists (h.is.wp_clear (E := False))
  have := EllB.rows_zero h hs hI
  exact ⟨A', e, this.dim, hs.M, EllB.represents_iff.2 ⟨_, this⟩⟩

example : ∃ A', ebA.clear = .ok A' ∧ A'.getElement 0 4 = .ok 0 := by
  obtain ⟨A', e, -, -, h⟩ := C53_clear_partial ebA_spec.1
  exact ⟨A', e, h.get 0 4 (by decide) (by decide)⟩

/-- **C53 does not hold**, for any matrix: in every block row that held a block, writing an element
after `bml_clear` is an error (`bml_clear` leaves the pointers to the freed blocks in place, and
`bml_set_element` asserts that they are NULL). -/
theorem C53_clear_then_set {N : Nat} {A : EllB R} {a : Spec.Mat R} (hA : A.Represents N a)
    {ib ii jb jj kb : Nat} (hi : ib < A.NB) (hii : ii < A.bsize.get ib) (hj : jb < A.NB)
    (hjj : jj < A.bsize.get jb) (hne : A.Has ib kb) (v : R) :
    (A.clear >>= fun A' =>
      A'.setElement (EllB.off A.bsize.get ib + ii) (EllB.off A.bsize.get jb + jj) v) = .error := by
  obtain ⟨L, h⟩ := EllB.represents_iff.1 hA
  refine h.clear_setElement hi hj hii hjj ?_ v
  intro h0
  have := (h.has_iff hi).1 hne
  rw [h0] at this
  cases this

example : (ebA.clear >>= fun A' => A'.setElement 0 4 (1 : Int)) = .error :=
  C53_clear_then_set ebA_spec.1 (ib := 0) (ii := 0) (jb := 1) (jj := 0) (kb := 1) (by decide)
    (by decide) (by decide) (by decide) ⟨0, by decide, by decide⟩ 1

/-! ## C54: rows and diagonals -/

/-- **C54**, `bml_get_row`. -/
theorem C54_get_row {N : Nat} {A : EllB R} {a : Spec.Mat R} (hA : A.Represents N a) {i : Nat}
    (hi : i < N) : ∃ r, A.getRow i = .ok r ∧ r.size = N ∧ ∀ j, j < N → r.get j = a i j := by
  obtain ⟨L, h⟩ := EllB.represents_iff.1 hA
  exact Res.wp_exists (h.wp_getRow (E := False) hi)

example : ∃ r, ebA.getRow 4 = .ok r ∧ r.get 0 = -1 ∧ r.get 3 = 0 := by
  obtain ⟨r, e, -, h⟩ := C54_get_row ebA_spec.1 (i := 4) (by decide)
  exact ⟨r, e, h 0 (by decide), h 3 (by decide)⟩

/-- **C54**, `bml_get_diagonal`. -/
theorem C54_get_diagonal {N : Nat} {A : EllB R} {a : Spec.Mat R} (hA : A.Represents N a) :
    ∃ d, A.getDiagonal = .ok d ∧ d.size = N ∧ ∀ i, i < N → d.get i = a i i := by
  obtain ⟨L, h⟩ := EllB.represents_iff.1 hA
  exact Res.wp_exists (h.wp_getDiagonal (E := False))

example : ∃ d, ebA.getDiagonal = .ok d ∧ d.get 4 = 2 ∧ d.get 0 = 0 := by
  obtain ⟨d, e, -, h⟩ := C54_get_diagonal ebA_spec.1
  exact ⟨d, e, h 4 (by decide), h 0 (by decide)⟩

/-- **C54**, `bml_set_row`, partial: if the blocks fit (`RowFits`: the blocks the row holds and those
with a kept value are at most `MB`), the kept entries are written and no other element changes.
Missing: entries at or below the threshold are not set to zero but keep their old value
(`C54_set_row_keeps_old`), and a full block row is not reported (`C54_set_row_overflow`). -/
theorem C54_set_row_partial {N : Nat} {A : EllB R} {a : Spec.Mat R} (hA : A.Represents N a)
    (big : R → Bool) {ib ii : Nat} (hi : ib < A.NB) (hii : ii < A.bsize.get ib) {row : Arr R}
    (hrow : N ≤ row.size) (hfit : A.RowFits big row.get ib) :
    ∃ A', A.setRow big (EllB.off A.bsize.get ib + ii) row = .ok A' ∧ A'.M = A.M ∧
      (A.Clean → A'.Clean) ∧
      A'.Represents N (fun i j => if i = EllB.off A.bsize.get ib + ii ∧ big (row.get j) = true
        then row.get j else a i j) := by
  obtain ⟨L, h⟩ := EllB.represents_iff.1 hA
  obtain ⟨A', e, L', h1, h2, h3⟩ := Res.wp_exists (h.wp_setRow (E := False) big hi hii hrow hfit)
  exact ⟨A', e, h2.M, h3, EllB.represents_iff.2 ⟨L', h1⟩⟩

/-- `ebA` has two block columns and room for two. -/
example : ∃ A', ebA.setRow (fun x => decide (x ≠ 0)) 4 ⟨5, fun k => (k : Int)⟩ = .ok A' ∧
    A'.getElement 4 3 = .ok 3 ∧ A'.getElement 4 0 = .ok (-1) := by
  obtain ⟨A', e, -, -, h⟩ := C54_set_row_partial ebA_spec.1 (fun x => decide (x ≠ 0)) (ib := 1)
    (ii := 0) (row := ⟨5, fun k => (k : Int)⟩) (by decide) (by decide) (by decide)
    ⟨Finset.range 2, by decide, fun jb hjb _ => Finset.mem_range.2 hjb⟩
  exact ⟨A', e, h.get 4 3 (by decide) (by decide), h.get 4 0 (by decide) (by decide)⟩

/-- After writing the zero row, the old element is still there. -/
theorem C54_set_row_keeps_old :
    ∃ A', ebA.setRow (fun x => decide (x ≠ 0)) 4 ⟨5, fun _ => (0 : Int)⟩ = .ok A' ∧
      A'.getElement 4 4 = .ok 2 := by
  obtain ⟨A', e, -, -, h⟩ := C54_set_row_partial ebA_spec.1 (fun x => decide (x ≠ 0)) (ib := 1)
    (ii := 0) (row := ⟨5, fun _ => (0 : Int)⟩) (by decide) (by decide) (by decide)
    ⟨Finset.range 2, by decide, fun jb hjb _ => Finset.mem_range.2 hjb⟩
  exact ⟨A', e, h.get 4 4 (by decide) (by decide)⟩

/-- A row of 17 entries needs five blocks, four fit: the last block row writes out of bounds. -/
theorem C54_set_row_overflow :
    (newB Int 17 16).setRow (fun x => decide (x ≠ 0)) 16 ⟨17, fun _ => 1⟩ = .ub :=
  Res.eq_ub_of_isUb (by decide +kernel)

/-- In any other block row the fifth block silently lands in the first slot of the next block
row: no error, and the element is gone once the next row is written. -/
theorem C54_set_row_overflow_silent : ∃ A A',
    (newB Int 17 16).setRow (fun x => decide (x ≠ 0)) 0 ⟨17, fun _ => 1⟩ = .ok A ∧
    A.nnzb.get 0 = 5 ∧ A.MB = 4 ∧ A.setRow (fun x => decide (x ≠ 0)) 4 ⟨17, fun k => if k = 0 then 1 else 0⟩
      = .ok A' ∧ A'.getElement 0 16 = .ok 0 :=
  ⟨_, _, rfl, rfl, rfl, rfl, by decide +kernel⟩

/-- **C54**, `bml_set_diagonal`, partial: if the blocks fit, the elements off the diagonal are
unchanged, and the diagonal is `d` except that blocks without any element above the threshold become
zero.  Missing: the threshold is applied per block, not per element
(`C54_set_diagonal_block_threshold`). -/
theorem C54_set_diagonal_partial {N : Nat} {A : EllB R} {a : Spec.Mat R} (hA : A.Represents N a)
    (big : R → Bool) {d : Arr R} (hd : N ≤ d.size) (hfit : A.DiagFits big d.get) :
    ∃ A', A.setDiagonal big d = .ok A' ∧ A'.M = A.M ∧ (A.Clean → A'.Clean) ∧ A'.WF ∧ A'.N = N ∧
      (∀ i j : Nat, i < N → j < N → i ≠ j → A'.getElement i j = .ok (a i j)) ∧
      ∀ i : Nat, i < N →
        ((∃ i', EllB.Together A.bsize.get i i' ∧ big (d.get i') = true) →
          A'.getElement i i = .ok (d.get i)) ∧
        ((∀ i', EllB.Together A.bsize.get i i' → big (d.get i') = false) →
          A'.getElement i i = .ok 0) := by
  classical
  obtain ⟨L, h⟩ := EllB.represents_iff.1 hA
  obtain ⟨A', e, L', h1, h2, h3⟩ := Res.wp_exists (h.wp_setDiagonal (E := False) big hd hfit)
  refine ⟨A', e, h2.M, h3, h1.wf, h1.dim, fun i j hi hj hne => ?_, fun i hi => ⟨fun hb => ?_, fun hb => ?_⟩⟩
  · rw [h1.get hi hj]
    unfold EllB.diagSpec
    rw [if_neg hne]
  · rw [h1.get hi hi]
    unfold EllB.diagSpec
    rw [if_pos rfl, if_pos hb]
  · rw [h1.get hi hi]
    unfold EllB.diagSpec
    rw [if_pos rfl, if_neg]
    rintro ⟨i', h4, h5⟩
    rw [hb i' h4] at h5
    cases h5

/-- An element at the threshold in a block with a larger one is written. -/
theorem C54_set_diagonal_block_threshold :
    ∃ A', ebA.setDiagonal (fun x => decide (3 < x)) ⟨5, fun k => (k + 1 : Int)⟩ = .ok A' ∧
      A'.getElement 0 0 = .ok 1 ∧ A'.getElement 4 4 = .ok 5 ∧ A'.getElement 0 4 = .ok 5 := by
  obtain ⟨A', e, -, -, -, -, h1, h2⟩ := C54_set_diagonal_partial ebA_spec.1
    (fun x => decide (3 < x)) (d := ⟨5, fun k => (k + 1 : Int)⟩) (by decide) (by
      intro ib hib _
      have hib' : ib < 2 := hib
      left
      interval_cases ib
      · exact ⟨1, by decide, by decide⟩
      · exact ⟨0, by decide, by decide⟩)
  exact ⟨A', e, (h2 0 (by decide)).1 ⟨3, ⟨0, by decide, by decide, by decide, by decide⟩, by decide⟩,
    (h2 4 (by decide)).1 ⟨4, ⟨1, by decide, by decide, by decide, by decide⟩, by decide⟩,
    h1 0 4 (by decide) (by decide) (by decide)⟩

/-- **C54**, round trip: `bml_set_diagonal` with a threshold nothing falls under, then
`bml_get_diagonal`. -/
theorem C54_diagonal_round_trip {N : Nat} {A : EllB R} {a : Spec.Mat R} (hA : A.Represents N a)
    {d : Arr R} (hd : N ≤ d.size) (hfit : A.DiagFits (fun _ => true) d.get) :
    ∃ A' d', A.setDiagonal (fun _ => true) d = .ok A' ∧ A'.getDiagonal = .ok d' ∧
      ∀ i, i < N → d'.get i = d.get i := by
  obtain ⟨A', e, -, -, hwf, hN, h1, h2⟩ := C54_set_diagonal_partial hA (fun _ => true) hd hfit
  have hR : A'.Represents N (fun i j => if i = j then d.get i else a i j) := by
    refine ⟨hwf, hN, fun i j hi hj => ?_⟩
    by_cases he : i = j
    · subst he
      rw [if_pos rfl]
      refine (h2 i hi).1 ⟨i, ?_, rfl⟩
      obtain ⟨L, h⟩ := EllB.represents_iff.1 hA
      obtain ⟨ib, ii, q1, q2, q3⟩ := h.surj hi
      rw [← q3]
      exact (EllB.together_iff q2 _).2 ⟨ii, q2, rfl⟩
    · rw [if_neg he]
      exact h1 i j hi hj he
  obtain ⟨d', e', -, h'⟩ := C54_get_diagonal hR
  exact ⟨A', d', e, e', fun i hi => by rw [h' i hi, if_pos rfl]⟩

/-! ## C55: import and export -/

/-- **C55**, import, partial: the elements of the dense data, except that blocks without any element
above the threshold become zero; the blocks with one must fit.  Missing: an overfull block row is not
reported (`C55_import_overflow`). -/
theorem C55_import_partial {g : EllB.Glob} {N M : Nat} (hM : M ≤ N) (hg : g.For N M)
    {addr : Nat → Nat → Nat} (big : R → Bool) {dense : Arr R} {junk : Nat → R}
    (hd : ∀ i j, i < N → j < N → addr i j < dense.size) :
    ∃ g' b, EllB.getBlockSizes g N M = .ok (g', b) ∧
      (EllB.BlocksFit big b.get g'.nb g'.mb (fun i j => dense.get (addr i j)) →
      ∃ A, EllB.importDense g addr big N M dense junk = .ok (g', A) ∧ A.M = M ∧ A.Clean ∧ A.WF ∧
        A.N = N ∧ ∀ i j : Nat, i < N → j < N →
          ((∃ i' j', EllB.Together b.get i i' ∧ EllB.Together b.get j j' ∧
            big (dense.get (addr i' j')) = true) →
              A.getElement i j = .ok (dense.get (addr i j))) ∧
          ((∀ i' j', EllB.Together b.get i i' → EllB.Together b.get j j' →
            big (dense.get (addr i' j')) = false) → A.getElement i j = .ok 0)) := by
  classical
  obtain ⟨g', b, e, -, h⟩ := EllB.wp_importDense (R := R) (E := False) hg hM big (junk := junk) hd
  refine ⟨g', b, e, fun hfit => ?_⟩
  obtain ⟨⟨g2, A⟩, e2, rfl, L, h1, h2, h3⟩ := Res.wp_exists (h hfit)
  refine ⟨A, e2, h3.M, h2, h1.wf, h1.dim, fun i j hi hj => ?_⟩
  rw [h1.get hi hj]
  unfold EllB.keepBlk
  constructor
  · intro hb; rw [if_pos hb]
  · intro hb
    rw [if_neg]
    rintro ⟨i', j', h4, h5, h6⟩
    rw [hb i' j' h4 h5] at h6
    cases h6

/-- **C55**, export, in either order. -/
theorem C55_export {N : Nat} {A : EllB R} {a : Spec.Mat R} (hA : A.Represents N a) (hN : 0 < N)
    (hpos : ∀ ib, ib < A.NB → 0 < A.bsize.get ib) {addr : Nat → Nat → Nat}
    (hord : addr = (fun i j => ROWMAJOR i j N N) ∨ addr = (fun i j => COLMAJOR i j N N)) :
    ∃ d, EllB.exportDense addr A = .ok d ∧ d.size = N * N ∧
      ∀ i j, i < N → j < N → d.get (addr i j) = a i j := by
  obtain ⟨L, h⟩ := EllB.represents_iff.1 hA
  refine Res.wp_exists (h.wp_exportDense (E := False) hN hpos ?_ ?_)
  · intro i j hi hj
    rcases hord with rfl | rfl
    · exact addr_lt hi hj
    · show i + j * N < N * N
      rw [Nat.add_comm]
      exact addr_lt hj hi
  · intro i j i' j' hi hj hi' hj' he
    rcases hord with rfl | rfl
    · exact addr_inj hj hj' he
    · have he' : j * N + i = j' * N + i' := by
        have : i + j * N = i' + j' * N := he
        omega
      obtain ⟨h1, h2⟩ := addr_inj hi hi' he'
      exact ⟨h2, h1⟩

example : ∃ d, EllB.exportDense (fun i j => COLMAJOR i j 5 5) ebA = .ok d ∧
    d.get (0 + 4 * 5) = 5 ∧ d.get (4 + 0 * 5) = -1 := by
  obtain ⟨d, e, -, h⟩ := C55_export ebA_spec.1 (by decide) (by
    intro ib hib
    have hib' : ib < 2 := hib
    interval_cases ib <;> decide) (Or.inr rfl)
  exact ⟨d, e, h 0 4 (by decide) (by decide), h 4 0 (by decide) (by decide)⟩

/-- Import of a 6 × 6 dense matrix (blocks 4 and 2): the hypotheses are met. -/
example : ∃ g' A, EllB.importDense EllB.Glob.init (fun i j => ROWMAJOR i j 6 6)
      (fun x : Int => decide (3 < x)) 6 6 ⟨36, fun k => if k = 0 then 9 else if k < 4 then 1 else 0⟩
      (fun _ => 77) = .ok (g', A) ∧ A.getElement 0 3 = .ok 1 ∧ A.getElement 5 5 = .ok 0 := by
  obtain ⟨g', b, e, h⟩ := C55_import_partial (R := Int) (g := EllB.Glob.init) (N := 6) (M := 6)
    le_rfl (Or.inl ⟨rfl, by decide⟩) (addr := fun i j => ROWMAJOR i j 6 6)
    (fun x : Int => decide (3 < x))
    (dense := ⟨36, fun k => if k = 0 then 9 else if k < 4 then 1 else 0⟩) (junk := fun _ => 77)
    (fun i j hi hj => addr_lt hi hj)
  cases e
  obtain ⟨A, e, -, -, -, -, h'⟩ := h (EllB.blocksFit_of_le (by decide) _)
  refine ⟨_, A, e, ?_, ?_⟩
  · exact (h' 0 3 (by decide) (by decide)).1 ⟨0, 0, ⟨0, by decide, by decide, by decide, by decide⟩,
      ⟨0, by decide, by decide, by decide, by decide⟩, by decide⟩
  · refine (h' 5 5 (by decide) (by decide)).2 ?_
    intro i' j' h1 _
    obtain ⟨ii, h3, rfl⟩ := (EllB.together_iff (bs := _) (ib := 1) (ii := 1) (by decide) i').1 h1
    have : (4 + ii) * 6 + j' ≥ 4 := by omega
    have h36 : ¬ ((4 + ii) * 6 + j' = 0) := by omega
    have h37 : ¬ ((4 + ii) * 6 + j' < 4) := by omega
    show decide (3 < (if (4 + ii) * 6 + j' = 0 then (9 : Int) else
      if (4 + ii) * 6 + j' < 4 then 1 else 0)) = false
    rw [if_neg h36, if_neg h37]
    decide

/-- A full 17 × 17 matrix imported with room for 16 per row: out of bounds in the last row. -/
theorem C55_import_overflow : EllB.importDense EllB.Glob.init (fun i j => ROWMAJOR i j 17 17)
    (fun x : Int => decide (x ≠ 0)) 17 16 ⟨17 * 17, fun _ => 1⟩ (fun _ => 0) = .ub :=
  Res.eq_ub_of_isUb (by decide +kernel)

/-! ## C56: copies and scaling -/

/-- **C56**, `bml_copy_new`, partial: the same elements, for any order of the parallel loop.
Missing: block sizes of 10 and more are an error (`C56_copy_large_block`). -/
theorem C56_copy_new_partial {N : Nat} {A : EllB R} {a : Spec.Mat R} (hA : A.Represents N a)
    (hMB : 0 < A.MB) (hM : A.M ≤ N) (hNB : 0 < A.NB)
    (hbs : ∀ ib, ib < A.NB → 0 < A.bsize.get ib ∧ A.bsize.get ib < 10) {g : EllB.Glob}
    (hg : g.mb ≠ 0) {sc : Sched} (hsc : IsSched 0 A.NB sc) :
    ∃ B, EllB.copyMatrix g sc A = .ok (g, B) ∧ B.M = A.M ∧ B.Clean ∧ B.Represents N a := by
  obtain ⟨L, h⟩ := EllB.represents_iff.1 hA
  obtain ⟨⟨g', B⟩, e, rfl, L', h1, h2, h3, -⟩ :=
    Res.wp_exists (h.wp_copyMatrix (E := False) hMB hM hNB hbs hg hsc)
  exact ⟨B, e, h3.M, h2, EllB.represents_iff.2 ⟨L', h1⟩⟩

theorem ebA_bs : ∀ ib, ib < ebA.NB → 0 < ebA.bsize.get ib ∧ ebA.bsize.get ib < 10 := by
  intro ib hib
  have hib' : ib < 2 := hib
  interval_cases ib <;> decide

example : ∃ B, EllB.copyMatrix ⟨none, 1, 1⟩ [(0, 1), (1, 0)] ebA = .ok (⟨none, 1, 1⟩, B) ∧
    B.getElement 0 4 = .ok 5 := by
  obtain ⟨B, e, -, -, h⟩ := C56_copy_new_partial ebA_spec.1 (by decide) (by decide) (by decide)
    ebA_bs (g := ⟨none, 1, 1⟩) (by decide) (sc := [(0, 1), (1, 0)])
    (show List.Perm [1, 0] [0, 1] by decide)
  exact ⟨B, e, h.get 0 4 (by decide) (by decide)⟩

/-- A block of 10 rows cannot be copied. -/
theorem C56_copy_large_block (sc : Sched) (t : Nat) :
    EllB.copyMatrix ⟨none, 1, 1⟩ ((t, 0) :: sc)
      (EllB.empty 10 10 1 1 ⟨1, fun _ => 10⟩ : EllB Int) = .error := rfl

/-- **C56**, `bml_copy`, partial: the target must have the same block structure and `Room` for the
blocks.  Missing: with blocks of different sizes the copy overruns the blocks the target already has
(`C56_copy_overflow`). -/
theorem C56_copy_partial {N : Nat} {A B : EllB R} {a : Spec.Mat R} {b : Spec.Mat R}
    (hA : A.Represents N a) (hB : B.Represents N b) (hC : B.Clean) (hNB : B.NB = A.NB)
    (hMB : B.MB = A.MB) (hbs : B.bsize = A.bsize) (hroom : EllB.Room A B) {sc : Sched}
    (hsc : IsSched 0 A.NB sc) (junk : Nat → R) :
    ∃ B', EllB.copyInto sc junk A B = .ok B' ∧ B'.M = B.M ∧ B'.Represents N a := by
  obtain ⟨L, h⟩ := EllB.represents_iff.1 hA
  obtain ⟨LB, h'⟩ := EllB.represents_iff.1 hB
  obtain ⟨B', e, L', h1, -, h3, -⟩ := Res.wp_exists (h.wp_copyInto (E := False)
    (h'.is.slots hC).tidy hNB hMB hbs h'.dim (by rw [h'.is.nz_size, hNB])
    (by rw [h'.is.ix_size, hNB, hMB]) (by rw [h'.is.ptr_size, hNB, hMB]) hroom hsc junk)
  exact ⟨B', e, h3.M, EllB.represents_iff.2 ⟨L', h1⟩⟩

/-- **C56**, `bml_copy` between matrices whose blocks all have one size. -/
theorem C56_copy_uniform {N s : Nat} {A B : EllB R} {a : Spec.Mat R} {b : Spec.Mat R}
    (hA : A.Represents N a) (hB : B.Represents N b) (hC : B.Clean) (hNB : B.NB = A.NB)
    (hMB : B.MB = A.MB) (hbs : B.bsize = A.bsize) (hs : ∀ ib, ib < A.NB → A.bsize.get ib = s)
    {sc : Sched} (hsc : IsSched 0 A.NB sc) (junk : Nat → R) :
    ∃ B', EllB.copyInto sc junk A B = .ok B' ∧ B'.M = B.M ∧ B'.Represents N a := by
  obtain ⟨L, h⟩ := EllB.represents_iff.1 hA
  obtain ⟨LB, h'⟩ := EllB.represents_iff.1 hB
  exact C56_copy_partial hA hB hC hNB hMB hbs (EllB.room_uniform h h' hC hNB hMB hbs hs) hsc junk

/-- Two 8 × 8 matrices with 4 × 4 blocks, one with `(0,7)` set, one with `(0,0)` set. -/
example : ∃ A B B', runB [(⟨0, 7, 3⟩ : BWrite Int)] (newB Int 8 8) = .ok A ∧
    runB [(⟨0, 0, 1⟩ : BWrite Int)] (newB Int 8 8) = .ok B ∧
    EllB.copyInto [(0, 0), (0, 1)] (fun _ => 0) A B = .ok B' ∧ B'.getElement 0 7 = .ok 3 ∧
    B'.getElement 0 0 = .ok 0 := by
  obtain ⟨h1, h2, -, -⟩ := newB_spec (R := Int) (N := 8) (M := 8) le_rfl (by decide)
  obtain ⟨A, eA, -, -, hA⟩ := C38_history_full h1 h2 (by decide) [(⟨0, 7, 3⟩ : BWrite Int)] (by decide)
  obtain ⟨B, eB, cB, -, hB⟩ := C38_history_full h1 h2 (by decide) [(⟨0, 0, 1⟩ : BWrite Int)]
    (by decide)
  cases eA
  cases eB
  obtain ⟨B', e, -, h⟩ := C56_copy_uniform (s := 4) hA hB cB rfl rfl rfl (by
    intro ib hib
    have hib' : ib < 2 := hib
    interval_cases ib <;> rfl) (sc := [(0, 0), (0, 1)]) (show List.Perm [0, 1] [0, 1] by decide)
    (fun _ => 0)
  exact ⟨_, _, B', rfl, rfl, e, h.get 0 7 (by decide) (by decide), h.get 0 0 (by decide) (by decide)⟩

/-- 5 × 5, blocks 4 and 1: the target holds a 4 × 1 block where the source has a 4 × 4 block. -/
theorem C56_copy_overflow : ∃ A B, runB [(⟨0, 0, 1⟩ : BWrite Int)] (newB Int 5 5) = .ok A ∧
    runB [(⟨0, 4, 1⟩ : BWrite Int)] (newB Int 5 5) = .ok B ∧
    EllB.copyInto [(0, 0), (0, 1)] (fun _ => 0) A B = .ub :=
  ⟨_, _, rfl, rfl, rfl⟩

/-- **C56**, `bml_scale_inplace`. -/
theorem C56_scale_inplace {N : Nat} {A : EllB R} {a : Spec.Mat R} (hA : A.Represents N a) (c : R) :
    ∃ A', EllB.scaleInplace c A = .ok A' ∧ A'.M = A.M ∧ (A.Clean → A'.Clean) ∧
      A'.Represents N (fun i j => c * a i j) := by
  obtain ⟨L, h⟩ := EllB.represents_iff.1 hA
  obtain ⟨A', e, L', h1, h2, h3, -⟩ := Res.wp_exists (h.wp_scaleInplace (E := False) c)
  exact ⟨A', e, h2.M, h3, EllB.represents_iff.2 ⟨L', h1⟩⟩

example : ∃ A', EllB.scaleInplace 3 ebA = .ok A' ∧ A'.getElement 0 4 = .ok 15 := by
  obtain ⟨A', e, -, -, h⟩ := C56_scale_inplace ebA_spec.1 3
  exact ⟨A', e, h.get 0 4 (by decide) (by decide)⟩

/-- **C56**, `bml_scale` into another matrix, partial: as for `bml_copy`. -/
theorem C56_scale_partial {N : Nat} {A B : EllB R} {a : Spec.Mat R} {b : Spec.Mat R}
    (hA : A.Represents N a) (hB : B.Represents N b) (hC : B.Clean) (hNB : B.NB = A.NB)
    (hMB : B.MB = A.MB) (hbs : B.bsize = A.bsize) (hroom : EllB.Room A B) {sc : Sched}
    (hsc : IsSched 0 A.NB sc) (junk : Nat → R) (c : R) :
    ∃ B', EllB.scaleInto sc junk c A B = .ok B' ∧ B'.M = B.M ∧
      B'.Represents N (fun i j => c * a i j) := by
  obtain ⟨L, h⟩ := EllB.represents_iff.1 hA
  obtain ⟨LB, h'⟩ := EllB.represents_iff.1 hB
  obtain ⟨B', e, L', h1, h3, -⟩ := Res.wp_exists (h.wp_scaleInto (E := False)
    (h'.is.slots hC).tidy hNB hMB hbs h'.dim (by rw [h'.is.nz_size, hNB])
    (by rw [h'.is.ix_size, hNB, hMB]) (by rw [h'.is.ptr_size, hNB, hMB]) hroom hsc junk c)
  exact ⟨B', e, h3.M, EllB.represents_iff.2 ⟨L', h1⟩⟩

/-- The new matrix of the same block structure has room: nothing is allocated. -/
example : ∃ B', EllB.scaleInto [(0, 0), (0, 1)] (fun _ => 9) 3 ebA (newB Int 5 5) = .ok B' ∧
    B'.getElement 0 4 = .ok 15 := by
  obtain ⟨h1, h2, -, -⟩ := newB_spec (R := Int) (N := 5) (M := 5) le_rfl (by decide)
  obtain ⟨B', e, -, h⟩ := C56_scale_partial ebA_spec.1 h1 h2 rfl rfl rfl
    (fun ib jp _ _ => Or.inl rfl) (sc := [(0, 0), (0, 1)]) (show List.Perm [0, 1] [0, 1] by decide)
    (fun _ => 9) 3
  exact ⟨B', e, h.get 0 4 (by decide) (by decide)⟩

/-- **C56**, `bml_scale_new`, partial: block sizes below 10. -/
theorem C56_scale_new_partial {N : Nat} {A : EllB R} {a : Spec.Mat R} (hA : A.Represents N a)
    (hMB : 0 < A.MB) (hM : A.M ≤ N) (hNB : 0 < A.NB)
    (hbs : ∀ ib, ib < A.NB → 0 < A.bsize.get ib ∧ A.bsize.get ib < 10) {g : EllB.Glob}
    (hg : g.mb ≠ 0) {sc sc' : Sched} (hsc : IsSched 0 A.NB sc) (hsc' : IsSched 0 A.NB sc')
    (junk : Nat → R) (c : R) :
    ∃ B, EllB.scaleNew g sc sc' junk c A = .ok (g, B) ∧ B.M = A.M ∧
      B.Represents N (fun i j => c * a i j) := by
  obtain ⟨L, h⟩ := EllB.represents_iff.1 hA
  obtain ⟨⟨g', B⟩, e, rfl, h3, L', h1⟩ :=
    Res.wp_exists (h.wp_scaleNew (E := False) hMB hM hNB hbs hg hsc hsc' junk c)
  exact ⟨B, e, h3.M, EllB.represents_iff.2 ⟨L', h1⟩⟩

example : ∃ B, EllB.scaleNew ⟨none, 1, 1⟩ [(0, 1), (1, 0)] [(0, 0), (0, 1)] (fun _ => 4) 2 ebA =
    .ok (⟨none, 1, 1⟩, B) ∧ B.getElement 4 0 = .ok (-2) := by
  obtain ⟨B, e, -, h⟩ := C56_scale_new_partial ebA_spec.1 (by decide) (by decide) (by decide)
    ebA_bs (g := ⟨none, 1, 1⟩) (by decide) (sc := [(0, 1), (1, 0)]) (sc' := [(0, 0), (0, 1)])
    (show List.Perm [1, 0] [0, 1] by decide) (show List.Perm [0, 1] [0, 1] by decide) (fun _ => 4) 2
  exact ⟨B, e, h.get 4 0 (by decide) (by decide)⟩

end Bml.Props
