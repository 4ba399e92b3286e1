import Verif.Ellpack.Kernel
import Verif.Wlp

/-!
# ELLPACK: the threshold-adjusting product

`bml_multiply_ellpack_typed.c` lines 566-707.
-/

namespace Bml

theorem Arr.wlp_read {α : Type} (a : Arr α) (i : Nat) :
    (a.read i).wlp (fun v => i < a.size ∧ v = a.get i) := by
  intro v hv
  by_cases h : i < a.size
  · rw [Arr.read_ok h] at hv; cases hv; exact ⟨h, rfl⟩
  · rw [Arr.read_ub (by simpa using h)] at hv; cases hv

theorem Arr.wlp_write {α : Type} (a : Arr α) (i : Nat) (v : α) :
    (a.write i v).wlp (fun b => i < a.size ∧ b = ⟨a.size, upd a.get i v⟩) := by
  intro b hb
  by_cases h : i < a.size
  · rw [Arr.write_ok _ h] at hb; cases hb; exact ⟨h, rfl⟩
  · rw [Arr.write_ub _ (by simpa using h)] at hb; cases hb

theorem Res.wp_wlp {α : Type} {E : Prop} {r : Res α} {Q : α → Prop} (h : r.wp E Q) : r.wlp Q := by
  intro a ha
  subst ha
  exact h

theorem wlp_forList {α σ : Type} {l : List α} {s : σ} {f : α → σ → Res σ}
    (I : List α → σ → Prop) (h0 : I [] s)
    (hs : ∀ pre a s, a ∈ l → I pre s → (f a s).wlp (I (pre ++ [a]))) :
    (forList l s f).wlp (I l) := by
  suffices h : ∀ (post pre : List α) (s : σ), (∀ a ∈ post, a ∈ l) → I pre s →
      (forList post s f).wlp (I (pre ++ post)) by
    simpa using h l [] s (fun _ h => h) h0
  intro post
  induction post with
  | nil => intro pre s _ h; simpa [forList] using Res.wlp_ok.2 h
  | cons a post ih =>
    intro pre s hm h
    rw [forList_cons, Res.wlp_bind]
    refine Res.wlp_mono (hs pre a s (hm a (by simp)) h) fun s' h' => ?_
    have := ih (pre ++ [a]) s' (fun b hb => hm b (by simp [hb])) h'
    simpa using this

namespace Ell

variable {R : Type} [CommRing R]

/-- Lines 648-699: row `i`.  The last component is `aflag`.  In C it is set to 1 in the copy of the
thread and the copies are added; here it counts the rows.  Only `aflag > 0` is used. -/
def adjustRow (A B : Ell R) (big : R → Bool) (i : Nat) (C : Ell R) (s : Scr R) (aflag : Nat) :
    Res (Ell R × Scr R × Nat) := do
  let st ← accumProd A B i (s, 0)
  let aflag := if st.2 > C.M then aflag + 1 else aflag
  let (C, s, ll) ← flush C i (fun j x => decide (j = i) || big x) st.1 st.2
  let C ← C.setNnz i ll
  pure (C, s, aflag)

/-- Lines 618-702: one pass of the `while` loop.  `big` is the test against the current
`adjust_threshold`.  The private scratch arrays are copies of the cleared ones in every pass. -/
def adjustPass (A B C : Ell R) (big : R → Bool) (sc : Sched) : Res (Ell R × Nat) := do
  let (C, _, aflag) ← forList sc (C, (fun _ => clearScr C.N), 0)
    fun ti (st : Ell R × (Nat → Scr R) × Nat) => do
      let (C, s, aflag) ← adjustRow A B big ti.2 st.1 (st.2.1 ti.1) st.2.2
      pure (C, upd st.2.1 ti.1 s, aflag)
  pure (C, aflag)

/-- `bml_multiply_adjust_AB_ellpack`, lines 566-707: the state `(C, aflag)` after `n` evaluations of
the loop condition.  `bigs k` is the test against the threshold of pass `k` (`threshold * 2^k`),
`scs k` its schedule.  The call has returned after `n` steps when `aflag = 0`. -/
def adjustRun (A B C : Ell R) (bigs : Nat → R → Bool) (scs : Nat → Sched) :
    Nat → Res (Ell R × Nat)
  | 0 => .ok (C, 1)
  | n + 1 => do
    let st ← adjustRun A B C bigs scs n
    if st.2 > 0 then adjustPass A B st.1 (bigs n) (scs n) else pure st

/-- The number of touched columns is the size of the symbolic row. -/
theorem accumProd_count {N i l : Nat} {A B : Ell R} {s : Scr R} {f : Nat → R}
    (hH : s.Holds N l f)
    (hcols : ∀ j, j ∈ s.cols l ↔ ∃ p ∈ A.row i, j ∈ (B.row p.1).map Prod.fst) :
    l = symCount A B N i := by
  have := SRow.length_eq_card (N := N) hH.nodup
    (fun j => decide (∃ p ∈ A.row i, j ∈ (B.row p.1).map Prod.fst)) (by
      intro j
      rw [hcols j]
      simp only [decide_eq_true_eq]
      constructor
      · intro h; exact ⟨hH.lt j ((hcols j).2 h), h⟩
      · exact fun h => h.2)
  rw [Scr.cols_length] at this
  rw [this]
  unfold symCount
  congr 1
  apply Finset.filter_congr
  intro j _
  simp

/-- The number of entries that a pass stores in row `i`. -/
def keptCount (A B : Ell R) (big : R → Bool) (a b : Spec.Mat R) (N i : Nat) : Nat :=
  ((Finset.range N).filter (fun j => (j = i ∨ big (Spec.mul N a b i j) = true) ∧
      ∃ p ∈ A.row i, j ∈ (B.row p.1).map Prod.fst)).card

theorem keptCount_le (A B : Ell R) (big : R → Bool) (a b : Spec.Mat R) (N i : Nat) :
    keptCount A B big a b N i ≤ symCount A B N i := by
  unfold keptCount symCount
  apply Finset.card_le_card
  intro j hj
  rw [Finset.mem_filter] at hj ⊢
  exact ⟨hj.1, hj.2.2⟩

theorem wp_adjustRow {E : Prop} {N i : Nat} {A B C : Ell R} {s : Scr R} {a b : Spec.Mat R}
    (hA : A.Rep N a) (hB : B.Rep N b) (hC : C.Shape) (hCN : C.N = N) (hi : i < N)
    (hs : s.Clean N) (big : R → Bool) (t : Nat) (hfit : keptCount A B big a b N i ≤ C.M) :
    (adjustRow A B big i C s t).wp E (fun st => st.1.Shape ∧
      Frame C st.1 i ∧
      st.1.RowSat i (MulRow big N i (fun j => Spec.mul N a b i j)) ∧ st.2.1.Clean N ∧
      st.2.2 = t + if symCount A B N i > C.M then 1 else 0) := by
  unfold adjustRow
  rw [Res.wp_bind]
  have hAi := hA.rowSat hi
  refine Res.wp_mono (wp_accumProd hA.shape hA.dim hB.shape hB.dim hi hAi.1
    (fun p hp => hAi.2.1.2 p hp) (fun k hk => hB.rowSat hk) hs) ?_
  rintro ⟨s1, l1⟩ ⟨hH, hcols⟩
  simp only at hH hcols ⊢
  have hcount := accumProd_count hH hcols
  have hg : ∀ j, j < N → ((A.row i).map (fun p => p.2 * (B.row p.1).den j)).sum
      = Spec.mul N a b i j :=
    fun j hj => prod_value hAi.2 (fun k hk => hB.rowSat hk) hj
  rw [Res.wp_bind]
  refine Res.wp_mono (wp_multFlush hC hCN hi big hH
    (g := fun j => Spec.mul N a b i j) hg ?_) ?_
  · refine le_trans ?_ hfit
    refine le_trans (SRow.length_le_card (N := N) (hH.nodup.filter _)
      (fun j => decide ((j = i ∨ big (Spec.mul N a b i j) = true) ∧
      ∃ p ∈ A.row i, j ∈ (B.row p.1).map Prod.fst)) ?_) (le_of_eq ?_)
    · intro j hj
      obtain ⟨hj1, hj2⟩ := List.mem_filter.1 hj
      have hlt := hH.lt j hj1
      refine ⟨hlt, ?_⟩
      simp only [hg j hlt] at hj2
      simp only [decide_eq_true_eq]
      exact ⟨by simpa using hj2, (hcols j).1 hj1⟩
    · unfold keptCount
      congr 1
      apply Finset.filter_congr
      intro j _
      simp
  · rintro ⟨C', s', ll⟩ ⟨hS, hN, hM, hnn, hfr, hrow, hll, hcl⟩
    simp only at hS hN hM hnn hfr hrow hll hcl ⊢
    rw [setNnz_eq hS _ (by omega)]
    simp only [Res.bind_ok, Res.pure_eq, Res.wp_ok]
    refine ⟨hS.withNnz _ _, hfr, ⟨hrow.1, hrow.2⟩, hcl, ?_⟩
    rw [hcount]
    split <;> rfl

theorem wp_adjustPass {E : Prop} {N lo hi : Nat} {A B C : Ell R} {a b c : Spec.Mat R}
    (hA : A.Rep N a) (hB : B.Rep N b) (hC : C.Shape) (hCN : C.N = N)
    (hc : ∀ i, i < N → C.RowSat i (IsRow N (c i))) (big : R → Bool) {sc : Sched}
    (hsc : IsSched lo hi sc) (hhi : hi ≤ N)
    (hfit : ∀ i, lo ≤ i → i < hi → keptCount A B big a b N i ≤ C.M) :
    (adjustPass A B C big sc).wp E (fun r => r.1.M = C.M ∧ r.1.Shape ∧ r.1.N = N ∧
        r.2 = (∑ i ∈ Finset.Ico lo hi, if symCount A B N i > C.M then 1 else 0) ∧
        ∀ i, i < N → if lo ≤ i ∧ i < hi
          then r.1.RowSat i (MulRow big N i (fun j => Spec.mul N a b i j))
          else r.1.RowSat i (IsRow N (c i))) := by
  unfold adjustPass
  rw [Res.wp_bind]
  refine Res.wp_mono (wp_kernelR (N := N) (M := C.M) (Ns := N) hsc hhi
    (fun i C s t => adjustRow A B big i C s t) (fun i => IsRow N (c i))
    (fun i => MulRow big N i (fun j => Spec.mul N a b i j))
    (fun i => if symCount A B N i > C.M then 1 else 0)
    ?_ hC hCN rfl hc ?_ 0) ?_
  · intro i C' s t h1 h2 hC' hN hM hP hs
    refine Res.wp_mono (wp_adjustRow hA hB hC' hN (by omega) hs big t
      (by rw [hM]; exact hfit i h1 h2)) ?_
    rintro st ⟨g1, g2, g3, g4, g5⟩
    exact ⟨g1, g2, g3, g4, by rw [g5, hM]⟩
  · intro t; rw [hCN]; exact Scr.clean_clearScr N
  · rintro ⟨A', scr, tr⟩ ⟨h1, h2, h3, h4, h5⟩
    exact ⟨h3, h1, h2, by simpa using h4, h5⟩

/-! ## The other case: normal outcomes have `aflag > 0` -/

omit [CommRing R] in
theorem wlp_putEntry (C : Ell R) (i p j : Nat) (v : R) :
    (C.putEntry i p j v).wlp (fun C' => C'.M = C.M ∧ C'.N = C.N) := by
  unfold putEntry
  rw [Res.wlp_bind]
  refine Res.wlp_mono (Arr.wlp_write _ _ _) fun _ _ => ?_
  rw [Res.wlp_bind]
  refine Res.wlp_mono (Arr.wlp_write _ _ _) fun _ _ => ?_
  exact Res.wlp_ok.2 ⟨rfl, rfl⟩

omit [CommRing R] in
theorem wlp_setNnz (C : Ell R) (i n : Nat) :
    (C.setNnz i n).wlp (fun C' => C'.M = C.M ∧ C'.N = C.N) := by
  unfold setNnz
  rw [Res.wlp_bind]
  refine Res.wlp_mono (Arr.wlp_write _ _ _) fun _ _ => ?_
  exact Res.wlp_ok.2 ⟨rfl, rfl⟩

/-- Also a compaction that runs over the end of the row leaves the scratch arrays clean. -/
theorem wlp_flush {N : Nat} (C : Ell R) (i : Nat) {s : Scr R} {l : Nat} {f : Nat → R}
    (h : s.Holds N l f) (test : Nat → R → Bool) :
    (flush C i test s l).wlp (fun st => st.1.M = C.M ∧ st.1.N = C.N ∧ st.2.1.Clean N) := by
  unfold flush
  refine Res.wlp_mono (wlp_loop (fun jp (st : Ell R × Scr R × Nat) =>
      st.1.M = C.M ∧ st.1.N = C.N ∧ st.2.1.x.size = N ∧ st.2.1.ix.size = N ∧ st.2.1.jx = s.jx ∧
      (∀ k, k ∉ s.cols jp → st.2.1.ix.get k = s.ix.get k) ∧
      (∀ k, k ∈ s.cols jp → st.2.1.ix.get k = 0)) ?_ ?_) ?_
  · exact ⟨rfl, rfl, h.szx, h.szi, rfl, fun _ _ => rfl, by simp [Scr.cols]⟩
  · rintro jp hjp ⟨C', s', ll⟩ ⟨h1, h2, h3, h4, h5, h6, h7⟩
    simp only at h1 h2 h3 h4 h5 h6 h7 ⊢
    rw [Res.wlp_bind]
    refine Res.wlp_mono (Arr.wlp_read _ _) ?_
    rintro _ ⟨hj, rfl⟩
    rw [Res.wlp_bind]
    refine Res.wlp_mono (Arr.wlp_read _ _) ?_
    rintro _ ⟨hx, rfl⟩
    rw [Res.wlp_bind]
    have hmid : (if test (s'.jx.get jp) (s'.x.get (s'.jx.get jp)) then do
        let C ← C'.putEntry i ll (s'.jx.get jp) (s'.x.get (s'.jx.get jp))
        pure (C, ll + 1)
      else pure (C', ll) : Res (Ell R × Nat)).wlp (fun r => r.1.M = C.M ∧ r.1.N = C.N) := by
      split
      · rw [Res.wlp_bind]
        refine Res.wlp_mono (wlp_putEntry _ _ _ _ _) fun C2 hC2 => ?_
        exact Res.wlp_ok.2 ⟨hC2.1.trans h1, hC2.2.trans h2⟩
      · exact Res.wlp_ok.2 ⟨h1, h2⟩
    refine Res.wlp_mono hmid ?_
    rintro ⟨C2, ll2⟩ ⟨g1, g2⟩
    simp only at g1 g2 ⊢
    rw [Res.wlp_bind]
    refine Res.wlp_mono (Arr.wlp_write _ _ _) ?_
    rintro _ ⟨_, rfl⟩
    rw [Res.wlp_bind]
    refine Res.wlp_mono (Arr.wlp_write _ _ _) ?_
    rintro _ ⟨_, rfl⟩
    refine Res.wlp_ok.2 ⟨g1, g2, h3, h4, h5, ?_, ?_⟩
    · intro k hk
      rw [Scr.cols_succ, List.mem_append, List.mem_singleton, not_or] at hk
      simp only
      rw [h5, upd_ne _ _ hk.2]
      exact h6 k hk.1
    · intro k hk
      rw [Scr.cols_succ, List.mem_append, List.mem_singleton] at hk
      simp only
      rw [h5]
      by_cases he : k = s.jx.get jp
      · subst he; simp
      · rw [upd_ne _ _ he]
        exact h7 k (hk.resolve_right he)
  · rintro ⟨C', s', ll⟩ ⟨h1, h2, h3, h4, h5, h6, h7⟩
    refine ⟨h1, h2, h3, h4, ?_, ?_⟩
    · simp only at h5 ⊢; rw [h5, h.szj]
    · intro k hk
      by_cases hm : k ∈ s.cols l
      · exact h7 k hm
      · rw [h6 k hm]; exact (h.mark k hk).2 hm

theorem wlp_adjustRow {N i : Nat} {A B : Ell R} (C : Ell R) {s : Scr R} {a b : Spec.Mat R}
    (hA : A.Rep N a) (hB : B.Rep N b) (hi : i < N) (hs : s.Clean N) (big : R → Bool) (t : Nat) :
    (adjustRow A B big i C s t).wlp (fun st => st.1.M = C.M ∧ st.1.N = C.N ∧ st.2.1.Clean N ∧
      st.2.2 = t + if symCount A B N i > C.M then 1 else 0) := by
  unfold adjustRow
  rw [Res.wlp_bind]
  have hAi := hA.rowSat hi
  refine Res.wlp_mono (Res.wp_wlp (E := False) (wp_accumProd hA.shape hA.dim hB.shape hB.dim hi hAi.1
    (fun p hp => hAi.2.1.2 p hp) (fun k hk => hB.rowSat hk) hs)) ?_
  rintro ⟨s1, l1⟩ ⟨hH, hcols⟩
  simp only at hH hcols ⊢
  have hcount := accumProd_count hH hcols
  rw [Res.wlp_bind]
  refine Res.wlp_mono (wlp_flush C i hH _) ?_
  rintro ⟨C', s', ll⟩ ⟨h1, h2, h3⟩
  simp only at h1 h2 h3 ⊢
  rw [Res.wlp_bind]
  refine Res.wlp_mono (wlp_setNnz _ _ _) fun C2 h4 => ?_
  refine Res.wlp_ok.2 ⟨h4.1.trans h1, h4.2.trans h2, h3, ?_⟩
  simp only
  rw [hcount]
  split <;> rfl

/-- A pass that ends normally has `aflag > 0` if the symbolic row of some row is too long. -/
theorem wlp_adjustPass {N lo hi : Nat} {A B : Ell R} (C : Ell R) {a b : Spec.Mat R}
    (hA : A.Rep N a) (hB : B.Rep N b) (hCN : C.N = N) (big : R → Bool) {sc : Sched}
    (hsc : IsSched lo hi sc) (hhi : hi ≤ N)
    (hlong : ∃ i, lo ≤ i ∧ i < hi ∧ symCount A B N i > C.M) :
    (adjustPass A B C big sc).wlp (fun r => r.1.M = C.M ∧ r.1.N = N ∧ r.2 > 0) := by
  unfold adjustPass
  rw [Res.wlp_bind]
  refine Res.wlp_mono (wlp_forList (fun (done : List (Nat × Nat))
      (st : Ell R × (Nat → Scr R) × Nat) => st.1.M = C.M ∧ st.1.N = N ∧ (∀ t, (st.2.1 t).Clean N) ∧
        ((∃ p ∈ done, symCount A B N p.2 > C.M) → st.2.2 > 0)) ?_ ?_) ?_
  · exact ⟨rfl, hCN, fun t => by simp only; rw [hCN]; exact Scr.clean_clearScr N, by simp⟩
  · rintro pre ⟨t, i⟩ ⟨C', scr, fl⟩ hm ⟨h1, h2, h3, h4⟩
    have hi := (hsc.mem i).1 (List.mem_map.2 ⟨_, hm, rfl⟩)
    simp only at h1 h2 h3 h4 ⊢
    rw [Res.wlp_bind]
    refine Res.wlp_mono (wlp_adjustRow C' hA hB (by omega) (h3 t) big fl) ?_
    rintro ⟨C2, s2, fl2⟩ ⟨g1, g2, g3, g4⟩
    simp only at g1 g2 g3 g4 ⊢
    refine Res.wlp_ok.2 ⟨g1.trans h1, g2.trans h2, ?_, ?_⟩
    · intro t'
      by_cases ht : t' = t
      · subst ht; simpa using g3
      · simp only; rw [upd_ne _ _ ht]; exact h3 t'
    · rintro ⟨p, hp, hgt⟩
      simp only
      rw [g4, h1]
      rcases List.mem_append.1 hp with hp | hp
      · have := h4 ⟨p, hp, hgt⟩
        omega
      · simp only [List.mem_singleton] at hp
        subst hp
        rw [if_pos hgt]; omega
  · rintro ⟨C', scr, fl⟩ ⟨h1, h2, h3, h4⟩
    refine Res.wlp_ok.2 ⟨h1, h2, h4 ?_⟩
    obtain ⟨i, g1, g2, g3⟩ := hlong
    have := (hsc.mem i).2 ⟨g1, g2⟩
    obtain ⟨p, hp, rfl⟩ := List.mem_map.1 this
    exact ⟨p, hp, g3⟩

theorem wlp_adjustRun {N lo hi : Nat} {A B C : Ell R} {a b : Spec.Mat R}
    (hA : A.Rep N a) (hB : B.Rep N b) (hCN : C.N = N) (bigs : Nat → R → Bool) {scs : Nat → Sched}
    (hsc : ∀ k, IsSched lo hi (scs k)) (hhi : hi ≤ N)
    (hlong : ∃ i, lo ≤ i ∧ i < hi ∧ symCount A B N i > C.M) (n : Nat) :
    (adjustRun A B C bigs scs n).wlp (fun r => r.1.M = C.M ∧ r.1.N = N ∧ r.2 > 0) := by
  induction n with
  | zero => exact Res.wlp_ok.2 ⟨rfl, hCN, Nat.one_pos⟩
  | succ n ih =>
    unfold adjustRun
    rw [Res.wlp_bind]
    refine Res.wlp_mono ih ?_
    rintro ⟨C', fl⟩ ⟨h1, h2, h3⟩
    simp only at h1 h2 h3 ⊢
    rw [if_pos h3]
    refine Res.wlp_mono (wlp_adjustPass C' hA hB h2 (bigs n) (hsc n) hhi
      (by rw [h1]; exact hlong)) ?_
    rintro r ⟨g1, g2, g3⟩
    exact ⟨g1.trans h1, g2, g3⟩

end Ell

end Bml
