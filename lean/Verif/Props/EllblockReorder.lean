import Verif.Ellblock.Reorder
import Verif.Ellblock.ReorderOne
import Verif.Props.Ellblock

/-!
# C30: `bml_reorder` of block-ELLPACK matrices
-/

namespace Bml.Props

open Bml

variable {R : Type} [CommRing R]

/-- **C30 fails** for block-ELLPACK: whenever the block rows have room for two or more blocks,
`bml_reorder` copies more than the first block of a row has, or reads the size of a block that is not
there, whatever the elements and the permutation are.  (Block sizes below ten are those that
`bml_copy_new`, which it calls first, accepts.) -/
theorem C30_ellblock_undefined {N : Nat} {A : EllB R} {a : Spec.Mat R} (hA : A.Represents N a)
    (hMB : 2 ≤ A.MB) (hM : A.M ≤ N) (hNB : 0 < A.NB)
    (hbs : ∀ ib, ib < A.NB → 0 < A.bsize.get ib ∧ A.bsize.get ib < 10) {g : EllB.Glob}
    (hg : g.mb ≠ 0) {sc : Sched} (hsc : IsSched 0 A.NB sc) (perm : Arr Nat) :
    EllB.reorder g sc perm A = .ub := by
  obtain ⟨L, h⟩ := EllB.represents_iff.1 hA
  obtain ⟨⟨g', B⟩, e, rfl, L', h1, -, h3, -⟩ :=
    Res.wp_exists (h.wp_copyMatrix (E := False) (by omega) hM hNB hbs hg hsc)
  have hE : B.Exact := EllB.wlp_copyMatrix hA.wf.nz_le hA.wf.nz_size _ e
  have key : EllB.Und (EllB.reorder g' sc perm A) fun _ => False := by
    unfold EllB.reorder
    rw [e, Res.bind_ok]
    simp only
    refine EllB.Und.bind (P := fun _ => True) ?_ fun bs _ => ?_
    · refine EllB.Und.loop (fun _ _ => True) trivial fun k _ s _ => ?_
      exact (EllB.Und.read _ _).bind fun _ _ => (EllB.Und.read _ _).bind fun _ _ =>
        EllB.Und.write _ _ _
    · refine EllB.Und.bind (P := fun _ => False) ?_ fun _ hf => hf.elim
      have := EllB.Und.loop (n := A.NB) (s := ({ A with bsize := bs } : EllB R))
        (f := fun ib A => EllB.reorderRow perm B ib A)
        (fun k A' => k = 0 ∧ A'.NB = A.NB ∧ A'.MB = A.MB) ⟨rfl, rfl, rfl⟩ ?_
      · rcases this with h | ⟨x, -, hx, -⟩
        · exact Or.inl h
        · omega
      · rintro k hk A' ⟨rfl, -, q2⟩
        left
        refine EllB.reorderRow_ub perm hE (q2.trans h3.MB.symm)
          (by rw [h3.MB]; exact hMB) (by rw [h3.NB]; exact hNB) ?_ ?_
        · rw [h1.is.bs_size]
        · intro k hk
          rw [h3.bsize]
          rw [h3.NB] at hk
          exact (hbs k hk).1
  rcases key with h | ⟨_, _, h⟩
  · exact h
  · exact h.elim

/-- The identity permutation of a 5 × 5 matrix with four elements. -/
example : EllB.reorder ⟨none, 1, 1⟩ [(0, 0), (0, 1)] ⟨5, id⟩ ebA = .ub :=
  C30_ellblock_undefined ebA_spec.1 (by decide) (by decide) (by decide) ebA_bs (by decide)
    (sc := [(0, 0), (0, 1)]) (show List.Perm [0, 1] [0, 1] by decide) _

theorem runB_same {N : Nat} (ws : List (BWrite R)) : ∀ {A A' : EllB R} {a : Spec.Mat R},
    A.Represents N a → (∀ w ∈ ws, w.i < N ∧ w.j < N) → runB ws A = .ok A' →
    EllB.Same A A' ∧ ∃ a', A'.Represents N a' := by
  induction ws with
  | nil =>
    intro A A' a hA _ e
    cases e
    exact ⟨.refl _, a, hA⟩
  | cons w ws ih =>
    intro A A' a hA hw e
    obtain ⟨h1, h2⟩ := hw w (by simp)
    obtain ⟨L, h⟩ := EllB.represents_iff.1 hA
    obtain ⟨ib, ii, q1, q2, q3⟩ := h.surj h1
    obtain ⟨jb, jj, q4, q5, q6⟩ := h.surj h2
    have hstep := h.wp_setElement q1 q4 q2 q5 w.v
    rw [q3, q6] at hstep
    unfold runB at e
    rw [forList_cons] at e
    cases e1 : A.setElement w.i w.j w.v with
    | ok B =>
      rw [e1] at e hstep
      rw [Res.bind_ok] at e
      obtain ⟨L', hw'⟩ := hstep
      obtain ⟨r1, r2⟩ := ih (EllB.represents_iff.2 ⟨L', hw'.rows⟩)
        (fun w' hm => hw w' (by simp [hm])) e
      exact ⟨hw'.same.trans r1, r2⟩
    | error => rw [e1] at e; cases e
    | ub => rw [e1] at e; cases e

/-- **C30 fails** for block-ELLPACK in every process that leaves the block sizes to the library: a
matrix of more than four rows, created by `bml_zero_matrix` and filled by any writes, cannot be
reordered, not even by the identity. -/
theorem C30_ellblock_process {N M : Nat} (h5 : 4 < N) (h0 : 0 < M) (hM : M ≤ N)
    (ws : List (BWrite R)) (hw : ∀ w ∈ ws, w.i < N ∧ w.j < N) {A : EllB R}
    (hA : runB ws (newB R N M) = .ok A) :
    ∃ g, EllB.zeroMatrix EllB.Glob.init N M = .ok (g, newB R N M) ∧
      ∀ sc : Sched, IsSched 0 A.NB sc → ∀ perm, EllB.reorder g sc perm A = .ub := by
  obtain ⟨h1, -, h3, -⟩ := newB_spec (R := R) hM h0
  obtain ⟨hs, a, hR⟩ := runB_same ws h1 hw hA
  obtain ⟨g, b, e, hset, eg⟩ := EllB.zeroMatrix_eq (R := R) (g := EllB.Glob.init) (N := N) (M := M)
    (Or.inl ⟨rfl, h0⟩) hM
  have en : newB R N M = EllB.empty N M g.nb g.mb ⟨g.nb, b.get⟩ := by
    unfold newB
    rw [e]
  have hb : 2 ≤ g.mb ∧ ∀ ib, ib < g.nb → 0 < b.get ib ∧ b.get ib < 10 := by
    unfold EllB.getBlockSizes at eg
    simp only [EllB.Glob.init] at eg
    rw [if_neg (by omega), if_neg (by split <;> omega)] at eg
    cases eg
    refine ⟨?_, fun ib hib => ?_⟩
    · simp only
      repeat' split
      all_goals omega
    · simp only at hib ⊢
      repeat' split
      all_goals (try split at hib) <;> omega
  have eMB : A.MB = g.mb := by rw [hs.MB, en]; rfl
  have eNB : A.NB = g.nb := by rw [hs.NB, en]; rfl
  have ebs : A.bsize = ⟨g.nb, b.get⟩ := by rw [hs.bsize, en]; rfl
  refine ⟨g, by rw [en]; exact e, fun sc hsc perm => ?_⟩
  refine C30_ellblock_undefined hR (by omega) (by rw [hs.M, h3]; exact hM)
    (by rw [eNB]; exact hset.nb) ?_ (by omega) hsc perm
  intro ib hib
  rw [ebs]
  exact hb.2 ib (by omega)

/-- The writes of `ebA`. -/
example : ∃ A, runB ebAw (newB Int 5 5) = .ok A ∧ ∃ g,
    EllB.zeroMatrix EllB.Glob.init 5 5 = .ok (g, newB Int 5 5) ∧
      ∀ sc : Sched, IsSched 0 A.NB sc → ∀ perm, EllB.reorder g sc perm A = .ub := by
  obtain ⟨h1, h2, -⟩ := newB_spec (R := Int) (N := 5) (M := 5) le_rfl (by decide)
  obtain ⟨A, e, -⟩ := C38_history_full h1 h2 (by decide) ebAw (by decide)
  exact ⟨A, e, C30_ellblock_process (by decide) (by decide) le_rfl ebAw (by decide) e⟩

/-- A 4 × 4 matrix: one block. -/
def ebQ : EllB Int :=
  match runB [⟨1, 1, 7⟩] (newB Int 4 4) with
  | .ok A => A
  | _ => newB Int 4 4

/-- **C30 fails** for a matrix of a single block too: the permutation is taken for one of blocks.
Exchanging rows 1 and 2 (and the columns) of a 4 × 4 matrix does nothing, and exchanging rows 0 and 1
makes `bml_reorder` read beyond the block sizes. -/
theorem C30_ellblock_rows_ignored :
    Res.okAnd (fun r : EllB.Glob × EllB Int => Res.okAnd (fun x => x == 7) (r.2.getElement 1 1) &&
        Res.okAnd (fun x => x == 0) (r.2.getElement 2 2))
      (EllB.reorder ⟨none, 1, 1⟩ [(0, 0)] ⟨4, fun i => [0, 2, 1, 3].getD i 0⟩ ebQ) = true ∧
    EllB.reorder ⟨none, 1, 1⟩ [(0, 0)] ⟨4, fun i => [1, 0, 2, 3].getD i 0⟩ ebQ = .ub :=
  ⟨by decide +kernel, Res.eq_ub_of_isUb (by decide +kernel)⟩

/-- An 8 × 8 matrix from `bml_block_matrix` with two blocks, one in each block row and room for no
more, both on the diagonal. -/
def ebR : EllB Int :=
  match runB [⟨0, 1, 7⟩, ⟨7, 4, 9⟩] (EllB.empty 8 4 2 1 ⟨2, fun _ => 4⟩) with
  | .ok A => A
  | _ => newB Int 8 4

/-- **C30**, block-ELLPACK, the case the code was written for: block rows with room for one block and a block
in each, blocks of one size below ten, `perm` a permutation of the blocks.  The element at place `ii`, `jj` of
block `i`, `j` goes to the same place of block `perm[i]`, `perm[j]`.  Missing: all other matrices, and
permutations of the rows, see `C30_ellblock_undefined`, `C30_ellblock_rows_ignored` and
`C30_ellblock_sizes_differ`. -/
theorem C30_ellblock_partial {N s : Nat} {A : EllB R} {a a' : Spec.Mat R} (hA : A.Represents N a)
    (hMB : A.MB = 1) (hfull : ∀ ib, ib < A.NB → A.nnzb.get ib = 1) (hs : 0 < s) (hs' : s < 10)
    (hbs : ∀ ib, ib < A.NB → A.bsize.get ib = s) (hNB : 0 < A.NB) (hM : A.M ≤ N) {g : EllB.Glob}
    (hg : g.mb ≠ 0) {sc : Sched} (hsc : IsSched 0 A.NB sc) {perm : Arr Nat} (hp : A.NB ≤ perm.size)
    (hlt : ∀ i, i < A.NB → perm.get i < A.NB)
    (hinj : ∀ i j, i < A.NB → j < A.NB → perm.get i = perm.get j → i = j)
    (ha : ∀ i j ii jj, i < A.NB → j < A.NB → ii < s → jj < s →
      a' (perm.get i * s + ii) (perm.get j * s + jj) = a (i * s + ii) (j * s + jj)) :
    ∃ A', EllB.reorder g sc perm A = .ok (g, A') ∧ A'.Represents N a' := by
  obtain ⟨L, h⟩ := EllB.represents_iff.1 hA
  obtain ⟨⟨g', B⟩, e, rfl, L', h1, -, h3, h4⟩ := Res.wp_exists (h.wp_copyMatrix (E := False) (by omega) hM hNB
    (fun ib hib => by rw [hbs ib hib]; exact ⟨hs, hs'⟩) hg hsc)
  obtain ⟨T, hT, -, -⟩ := h.one hMB hbs fun q hq => by rw [← h.is.nz q hq, hfull q hq]
  obtain ⟨X, hX, hX1, hX2⟩ := h1.one (by rw [h3.MB, hMB]) (s := s) (fun q hq => by
      rw [h3.NB] at hq
      rw [h3.bsize, hbs q hq]) fun q hq => by
      rw [h3.NB] at hq
      rw [← List.length_map (f := Prod.fst), h4 q hq, List.length_map, ← h.is.nz q hq, hfull q hq]
  rw [h3.NB] at hX hX1 hX2
  obtain ⟨A', e', n', T', o', r'⟩ := hT.wp_reorder hX hX1 e hp hlt hinj
  refine ⟨A', e', ?_⟩
  have hN : N = A.NB * s := by rw [← h.N_eq, EllB.off_const hbs]
  have hsurj : ∀ q, q < A.NB → ∃ i, i < A.NB ∧ perm.get i = q := by
    intro q hq
    have hs : Function.Surjective fun i : Fin A.NB => (⟨perm.get i, hlt i i.2⟩ : Fin A.NB) :=
      Finite.surjective_of_injective fun i j h => Fin.ext (hinj i j i.2 j.2 (congrArg Fin.val h))
    obtain ⟨i, hi⟩ := hs ⟨q, hq⟩
    exact ⟨i, i.2, congrArg Fin.val hi⟩
  rw [hN]
  refine o'.represents (by rw [n', h.dim, hN]) (fun q hq => ?_) fun q r ii jj hq hr hii hjj => ?_
  · obtain ⟨i, hi, rfl⟩ := hsurj q hq
    rw [(r' i hi).1]
    exact hlt _ (hX1 i hi)
  · obtain ⟨i, hi, rfl⟩ := hsurj q hq
    obtain ⟨j, hj, rfl⟩ := hsurj r hr
    rw [ha i j ii jj hi hj hii hjj, ← hX2 i j ii jj hi hj hii hjj, (r' i hi).1,
      (r' i hi).2 _ (addr_lt hii hjj)]
    by_cases hc : (X i).1 = j
    · rw [if_pos hc, if_pos (congrArg perm.get hc)]
    · rw [if_neg hc, if_neg fun h => hc (hinj _ _ (hX1 i hi) hj h)]

/-- With room for one block per block row, blocks of one size and a permutation of blocks, the code does
what it was written for: the two blocks change places. -/
theorem C30_ellblock_blocks_exchanged : Res.okAnd (fun r : EllB.Glob × EllB Int =>
      Res.okAnd (fun x => x == 7) (r.2.getElement 4 5) &&
      Res.okAnd (fun x => x == 9) (r.2.getElement 3 0) &&
      Res.okAnd (fun x => x == 0) (r.2.getElement 0 1))
    (EllB.reorder ⟨none, 1, 1⟩ [(0, 0), (0, 1)] ⟨2, fun i => 1 - i⟩ ebR) = true := by decide +kernel

theorem ebR_rep : ebR.Represents 8 (Spec.set (Spec.set (fun _ _ => 0) 0 1 7) 7 4 9) := by
  have h0 : (EllB.empty 8 4 2 1 ⟨2, fun _ => 4⟩ : EllB Int).Represents 8 (fun _ _ => 0) :=
    EllB.represents_iff.2 ⟨_, EllB.empty_rows rfl rfl⟩
  have h := C38_history [⟨0, 1, 7⟩, ⟨7, 4, 9⟩] h0 EllB.empty_clean (by decide)
  have hok : Res.okAnd (fun _ => true)
      (runB [⟨0, 1, 7⟩, ⟨7, 4, 9⟩] (EllB.empty 8 4 2 1 ⟨2, fun _ => 4⟩ : EllB Int)) = true := by decide +kernel
  unfold ebR
  cases hc : runB [⟨0, 1, 7⟩, ⟨7, 4, 9⟩] (EllB.empty 8 4 2 1 ⟨2, fun _ => 4⟩ : EllB Int) with
  | ok A =>
    rw [hc] at h
    exact h.2.2
  | error => rw [hc] at hok; cases hok
  | ub => rw [hc] at hok; cases hok

/-- The exchange of the two blocks of the 8 × 8 matrix. -/
example : ∃ A', EllB.reorder ⟨none, 1, 1⟩ [(0, 0), (0, 1)] ⟨2, fun i => 1 - i⟩ ebR = .ok (⟨none, 1, 1⟩, A') ∧
    A'.Represents 8 (Spec.set (Spec.set (fun _ _ => 0) 4 5 7) 3 0 9) := by
  have hNB : ebR.NB = 2 := by decide +kernel
  refine C30_ellblock_partial (s := 4) ebR_rep (by decide +kernel) ?_ (by decide) (by decide) ?_
    (by decide +kernel) (by decide +kernel) (by decide) ?_ (by decide +kernel) ?_ ?_ ?_
  · rw [hNB]; decide +kernel
  · rw [hNB]; decide +kernel
  · rw [hNB]
    exact (show List.Perm [0, 1] [0, 1] by decide)
  · rw [hNB]; decide +kernel
  · rw [hNB]
    intro i j hi hj h
    simp only at h
    omega
  · rw [hNB]
    have : ∀ i, i < 2 → ∀ j, j < 2 → ∀ ii, ii < 4 → ∀ jj, jj < 4 →
        (Spec.set (Spec.set (fun _ _ => 0) 4 5 7) 3 0 9 : Spec.Mat Int) ((1 - i) * 4 + ii) ((1 - j) * 4 + jj) =
          Spec.set (Spec.set (fun _ _ => 0) 0 1 7) 7 4 9 (i * 4 + ii) (j * 4 + jj) := by decide +kernel
    exact fun i j ii jj hi hj hii hjj => this i hi j hj ii hii jj hjj

/-- A 3 × 3 matrix with blocks of sizes 1 and 2 on the diagonal and room for no more. -/
def ebS : EllB Int :=
  match runB [⟨0, 0, 7⟩, ⟨2, 1, 9⟩] (EllB.empty 3 3 2 1 ⟨2, fun i => i + 1⟩) with
  | .ok A => A
  | _ => newB Int 3 3

/-- Blocks of two sizes cannot change places: the larger one is copied into the memory of the smaller. -/
theorem C30_ellblock_sizes_differ :
    Res.okAnd (fun x => x == 7) (ebS.getElement 0 0) = true ∧
    Res.okAnd (fun x => x == 9) (ebS.getElement 2 1) = true ∧
    EllB.reorder ⟨none, 1, 1⟩ [(0, 0), (0, 1)] ⟨2, fun i => 1 - i⟩ ebS = .ub ∧
    Res.okAnd (fun _ => true) (EllB.reorder ⟨none, 1, 1⟩ [(0, 0), (0, 1)] ⟨2, id⟩ ebS) = true :=
  ⟨by decide +kernel, by decide +kernel, Res.eq_ub_of_isUb (by decide +kernel), by decide +kernel⟩

end Bml.Props
