import Verif.Csr.Model2
import Verif.Csr.Ops2
import Verif.Ellpack.Kernel
import Verif.Own

/-!
# Correctness of the CSR format (3): traces, products, element-wise products
-/

namespace Bml

/-- A loop that adds one number per entry. -/
theorem forList_sum {R S : Type} [AddCommMonoid S] (L : SRow R) (f : Nat × R → S)
    {step : Nat × R → S → Res S} (s : S) (h : ∀ p ∈ L, ∀ t, step p t = .ok (t + f p)) :
    forList L s step = .ok (s + (L.map f).sum) := by
  induction L generalizing s with
  | nil => simp
  | cons p L ih =>
    rw [forList_cons, h p (by simp), Res.bind_ok, ih _ (fun q hq => h q (by simp [hq]))]
    simp [add_assoc]

namespace Csr

variable {R : Type} [CommRing R] {E : Prop}

/-! ## Traces -/

theorem trace_eq {A : Csr R} {N : Nat} {a : Spec.Mat R} (hA : A.Rep N a) {sc : Sched}
    (hsc : IsSched 0 N sc) : A.trace sc = .ok (Spec.tr N a) := by
  unfold trace
  rw [wp_sumSched hsc (fun i => a i i) 0]
  · rw [zero_add, ← Finset.range_eq_Ico]; rfl
  · intro t i acc _ hi
    simp only
    rw [hA.read hi, Res.bind_ok, CsrRow.get_eq (hA.holds i hi) hi]; rfl

theorem traceMultEntry_eq {B : Csr R} {N : Nat} {b : Spec.Mat R} (hB : B.Rep N b) {i j : Nat}
    (hi : i < N) (hj : j < N) (a t : R) : traceMultEntry B i j a t = .ok (t + a * b j i) := by
  unfold traceMultEntry
  rw [hB.read hj, Res.bind_ok, ← hB.den hj hi]
  rcases CsrRow.find_cases (hB.is hj) i with ⟨e, hn⟩ | ⟨L1, w, L2, e, hL, hn, hv⟩
  · rw [e, Res.bind_ok, SRow.den_of_not_mem hn]; simp
  · have hg := hB.good hj
    have hI := hB.is hj
    rw [e, Res.bind_ok]
    simp only
    rw [hL] at hI hg ⊢
    rw [SRow.den_at hg, Arr.read_ok hI.vals_lt, Res.bind_ok, hv]; rfl

theorem traceMult_eq {A B : Csr R} {N : Nat} {a b : Spec.Mat R} (hA : A.Rep N a) (hB : B.Rep N b)
    {sc : Sched} (hsc : IsSched 0 N sc) : A.traceMult B sc = .ok (Spec.tr N (Spec.mul N a b)) := by
  unfold traceMult
  rw [if_neg (by rw [hA.dim, hB.dim]; simp), wp_sumSched hsc (fun i => Spec.mul N a b i i) 0]
  · rw [zero_add, ← Finset.range_eq_Ico]; rfl
  · intro t i acc _ hi
    simp only
    rw [hA.read hi, Res.bind_ok, (hA.is hi).fold,
      forList_sum _ (fun p => p.2 * b p.1 i) _
        (fun p hp t => traceMultEntry_eq hB hi ((hA.good hi).2 p hp) p.2 t),
      ← SRow.sum_den_mul (hA.good hi).2 (fun k => b k i)]
    congr 2
    unfold Spec.mul
    exact Finset.sum_congr rfl (fun k hk => by rw [hA.den hi (by simpa using hk)])

/-! ## Products -/

open Scr

theorem wp_accumScaled {N : Nat} {b : CsrRow R} {L : SRow R} (hb : b.Is L)
    (hlt : ∀ p ∈ L, p.1 < N) {s : Scr R} {l : Nat} {f : Nat → R} (h : s.Holds N l f) {mark : Nat}
    (hm : mark ≠ 0) (a : R) :
    (accumScaled mark a b (s, l)).wp E (fun st => st.1.Holds N st.2 (fun j => f j + a * L.den j) ∧
      ∀ j ∈ st.1.cols st.2, j ∈ s.cols l ∨ j ∈ L.map Prod.fst) := by
  unfold accumScaled
  rw [hb.fold]
  refine wp_forList (fun done (st : Scr R × Nat) =>
    st.1.Holds N st.2 (fun j => f j + a * SRow.den done j) ∧
    ∀ j ∈ st.1.cols st.2, j ∈ s.cols l ∨ j ∈ done.map Prod.fst) ?_ ?_ (fun _ h => h)
  · exact ⟨h.congr (by simp), fun j hj => Or.inl hj⟩
  · rintro done p rest hL ⟨s', l'⟩ ⟨hH, hC⟩
    refine Res.wp_mono (Ell.wp_accum hH hm (hlt p (by rw [hL]; simp)) _) ?_
    rintro ⟨s2, l2⟩ ⟨h2, c2⟩
    refine ⟨h2.congr (fun j => ?_), fun j hj => ?_⟩
    · simp only [SRow.den_append, SRow.den_cons, SRow.den_nil, add_zero]
      split <;> ring
    · rw [c2] at hj
      have hj' : j ∈ s'.cols l' ∨ j = p.1 := by
        split at hj
        · exact Or.inl hj
        · simpa using hj
      rcases hj' with hj' | rfl
      · rcases hC j hj' with h | h
        · exact Or.inl h
        · exact Or.inr (by rw [List.map_append]; exact List.mem_append_left _ h)
      · exact Or.inr (by simp)

theorem wp_accumProd {N : Nat} {A B : Csr R} {a b : Spec.Mat R} (hA : A.Rep N a) (hB : B.Rep N b)
    {i : Nat} (hi : i < N) {s : Scr R} (hs : s.Clean N) :
    (accumProd A B i (s, 0)).wp E (fun st =>
      st.1.Holds N st.2 (fun j => ((A.row i).map (fun p => p.2 * (B.row p.1).den j)).sum) ∧
      ∀ j ∈ st.1.cols st.2, ∃ p ∈ A.row i, j ∈ (B.row p.1).map Prod.fst) := by
  unfold accumProd
  rw [hA.read hi, Res.bind_ok, (hA.is hi).fold]
  refine wp_forList (fun done (st : Scr R × Nat) =>
    st.1.Holds N st.2 (fun j => (done.map (fun p => p.2 * (B.row p.1).den j)).sum) ∧
    ∀ j ∈ st.1.cols st.2, ∃ p ∈ done, j ∈ (B.row p.1).map Prod.fst) ?_ ?_
    (fun _ h => h)
  · exact ⟨hs.holds.congr (by simp), by simp [Scr.cols]⟩
  · rintro done p rest hL ⟨s', l'⟩ ⟨hH, hC⟩
    have hp : p.1 < N := (hA.good hi).2 p (by rw [hL]; simp)
    rw [hB.read hp, Res.bind_ok]
    refine Res.wp_mono (wp_accumScaled (hB.is hp) (hB.good hp).2 hH (by omega) p.2) ?_
    rintro ⟨s2, l2⟩ ⟨h2, c2⟩
    refine ⟨h2.congr (fun j => by simp), fun j hj => ?_⟩
    rcases c2 j hj with h | h
    · obtain ⟨q, hq, hq'⟩ := hC j h
      exact ⟨q, by simp [hq], hq'⟩
    · exact ⟨p, by simp, h⟩

theorem prod_value {N i : Nat} {A B : Csr R} {a b : Spec.Mat R} (hA : A.Rep N a) (hB : B.Rep N b)
    (hi : i < N) {j : Nat} (hj : j < N) :
    ((A.row i).map (fun p => p.2 * (B.row p.1).den j)).sum = Spec.mul N a b i j := by
  unfold Spec.mul
  rw [← SRow.sum_den_mul (hA.good hi).2 (fun k => (B.row k).den j)]
  apply Finset.sum_congr rfl
  intro k hk
  have hk : k < N := by simpa using hk
  rw [hA.den hi hk, hB.den hk hj]

/-- The entries that the products keep in row `i`. -/
def kept (i : Nat) (big : R → Bool) (T : List Nat) (f : Nat → R) : SRow R :=
  SRow.ofCols (T.filter (fun j => decide (j = i) || big (f j))) f

theorem wp_flushRow {N i : Nat} {r : CsrRow R} {L0 : SRow R} (hr : r.Is L0) (big : R → Bool)
    {s : Scr R} {l : Nat} {f : Nat → R} (h : s.Holds N l f) (t : R) :
    (flushRow i big r s l t).wp E (fun st => st.1.Is (kept i big (s.cols l) f) ∧
      st.2.1.Clean N ∧ st.2.2 = t + f i) := by
  unfold flushRow
  rw [Res.wp_bind]
  refine Res.wp_mono (CsrRow.wp_clear hr) ?_
  rintro r0 ⟨hr0, -⟩
  have hlN : l ≤ N := by
    have h2 : (s.cols l).toFinset ⊆ Finset.range N := by
      intro a ha
      simp only [List.mem_toFinset] at ha
      simpa using h.lt a ha
    have h3 := Finset.card_le_card h2
    rw [List.toFinset_card_of_nodup h.nodup] at h3
    simpa using h3
  refine wp_loop' (fun jp (st : CsrRow R × Scr R × R) =>
      st.1.Is (kept i big (s.cols jp) f) ∧
      st.2.2 = t + (if i ∈ s.cols jp then f i else 0) ∧
      st.2.1.x.size = N ∧ st.2.1.ix.size = N ∧ st.2.1.jx = s.jx ∧
      (∀ k, k < N → k ∉ s.cols jp →
        st.2.1.ix.get k = s.ix.get k ∧ st.2.1.x.get k = s.x.get k) ∧
      (∀ k, k < N → k ∈ s.cols jp → st.2.1.ix.get k = 0)) ?_ ?_ ?_
  · refine ⟨by simpa [kept, SRow.ofCols, Scr.cols] using hr0, by simp [Scr.cols], h.szx, h.szi, rfl,
      fun _ _ _ => ⟨rfl, rfl⟩, by simp [Scr.cols]⟩
  · rintro jp hjp ⟨C', s', t'⟩ ⟨hrow, ht, hx, hi', hj, hun, hcl⟩
    simp only at hrow ht hx hi' hj hun hcl ⊢
    have hsplit : s.cols l = s.cols jp ++ s.jx.get jp ::
        ((List.range (l - jp - 1)).map (fun q => s.jx.get (jp + 1 + q))) := by
      have : l = jp + (1 + (l - jp - 1)) := by omega
      unfold Scr.cols
      conv_lhs => rw [this, List.range_add, List.map_append, List.map_map, List.range_add,
        List.map_append, List.map_map]
      simp [Function.comp_def, Nat.add_assoc]
    have hmem : s.jx.get jp ∈ s.cols l := by rw [hsplit]; simp
    have hnot : s.jx.get jp ∉ s.cols jp := by
      have := h.nodup
      rw [hsplit, List.nodup_append] at this
      intro hm
      exact this.2.2 _ hm _ (by simp) rfl
    have hlt := h.lt _ hmem
    have hval : s'.x.get (s.jx.get jp) = f (s.jx.get jp) := by
      rw [(hun _ hlt hnot).2, h.val _ hmem]
    rw [Res.wp_bind, Arr.wp_read]
    refine ⟨by rw [hj, h.szj]; omega, ?_⟩
    rw [Res.wp_bind, Arr.wp_read]
    have hjx : s'.jx.get jp = s.jx.get jp := by rw [hj]
    rw [hjx]
    refine ⟨by rw [hx]; exact hlt, ?_⟩
    rw [hval, Res.wp_bind]
    have hstep : ∀ {X : Res (CsrRow R × R)}, X.wp E (fun rt =>
        rt.1.Is (kept i big (s.cols (jp + 1)) f) ∧
        rt.2 = t + (if i ∈ s.cols (jp + 1) then f i else 0)) → X.wp E (fun rt =>
        ((match rt with
          | (r, t) => do
            let ix ← s'.ix.write (s.jx.get jp) 0
            let x ← s'.x.write (s.jx.get jp) 0
            pure (r, ⟨x, ix, s'.jx⟩, t)) : Res (CsrRow R × Scr R × R)).wp E (fun st =>
          st.1.Is (kept i big (s.cols (jp + 1)) f) ∧
          st.2.2 = t + (if i ∈ s.cols (jp + 1) then f i else 0) ∧
          st.2.1.x.size = N ∧ st.2.1.ix.size = N ∧ st.2.1.jx = s.jx ∧
          (∀ k, k < N → k ∉ s.cols (jp + 1) →
            st.2.1.ix.get k = s.ix.get k ∧ st.2.1.x.get k = s.x.get k) ∧
          (∀ k, k < N → k ∈ s.cols (jp + 1) → st.2.1.ix.get k = 0))) := by
      intro X hX
      refine Res.wp_mono hX ?_
      rintro ⟨r2, t2⟩ ⟨g1, g2⟩
      simp only at g1 g2
      simp only [Res.wp_bind, Arr.wp_write, Res.pure_eq, Res.wp_ok, hx, hi', hlt, true_and]
      refine ⟨g1, g2, hj, ?_, ?_⟩
      · intro k hk hkn
        rw [cols_succ, List.mem_append, List.mem_singleton, not_or] at hkn
        rw [upd_ne _ _ hkn.2, upd_ne _ _ hkn.2]
        exact hun k hk hkn.1
      · intro k hk hkm
        rw [cols_succ, List.mem_append, List.mem_singleton] at hkm
        by_cases he : k = s.jx.get jp
        · subst he; simp
        · rw [upd_ne _ _ he]
          exact hcl k hk (hkm.resolve_right he)
    apply hstep
    have hkeep : (s.jx.get jp = i ∨ big (f (s.jx.get jp)) = true) →
        kept i big (s.cols (jp + 1)) f
          = kept i big (s.cols jp) f ++ [(s.jx.get jp, f (s.jx.get jp))] := by
      intro hk
      unfold kept
      rw [cols_succ, List.filter_append, SRow.ofCols_append]
      have : (decide (s.jx.get jp = i) || big (f (s.jx.get jp))) = true := by simpa using hk
      simp [this, SRow.ofCols]
    have hcol : i ∈ s.cols (jp + 1) ↔ i ∈ s.cols jp ∨ i = s.jx.get jp := by
      rw [cols_succ]; simp
    by_cases h1 : s.jx.get jp = i
    · rw [if_pos h1, Res.wp_bind]
      refine Res.wp_mono (CsrRow.wp_setNew hrow _ _) ?_
      rintro r2 ⟨g, -⟩
      rw [Res.wp_pure]
      refine ⟨by rw [hkeep (Or.inl h1)]; exact g, ?_⟩
      simp only
      rw [if_pos (hcol.2 (Or.inr h1.symm)), ht, if_neg (by rw [← h1]; exact hnot), h1]
      ring
    · rw [if_neg h1]
      have ht2 : t' = t + (if i ∈ s.cols (jp + 1) then f i else 0) := by
        rw [ht]
        congr 1
        have : (i ∈ s.cols (jp + 1)) ↔ (i ∈ s.cols jp) := by
          rw [hcol]; constructor
          · rintro (h | h)
            · exact h
            · exact absurd h.symm h1
          · exact Or.inl
        simp only [this]
      by_cases h2 : big (f (s.jx.get jp)) = true
      · rw [if_pos h2, Res.wp_bind]
        refine Res.wp_mono (CsrRow.wp_setNew hrow _ _) ?_
        rintro r2 ⟨g, -⟩
        rw [Res.wp_pure]
        exact ⟨by rw [hkeep (Or.inr h2)]; exact g, ht2⟩
      · rw [if_neg h2, Res.wp_pure]
        refine ⟨?_, ht2⟩
        have : kept i big (s.cols (jp + 1)) f = kept i big (s.cols jp) f := by
          unfold kept
          rw [cols_succ, List.filter_append]
          simp [h1, h2]
        rw [this]; exact hrow
  · rintro ⟨C', s', t'⟩ ⟨hrow, ht, hx, hi', hj, hun, hcl⟩
    simp only at hrow ht hx hi' hj hun hcl ⊢
    refine ⟨hrow, ⟨hx, hi', by rw [hj, h.szj], ?_⟩, ?_⟩
    · intro k hk
      by_cases hkm : k ∈ s.cols l
      · exact hcl k hk hkm
      · exact (hun k hk hkm).1.trans ((h.mark k hk).2 hkm)
    · rw [ht]
      by_cases hm : i ∈ s.cols l
      · rw [if_pos hm]
      · rw [if_neg hm, h.out i hm]

theorem kept_cols {i : Nat} {big : R → Bool} {T : List Nat} {f : Nat → R} {j : Nat}
    (h : j ∈ (kept i big T f).map Prod.fst) : j ∈ T := by
  unfold kept at h
  rw [SRow.ofCols_map_fst] at h
  exact (List.mem_filter.1 h).1

/-- What a kept row stands for. -/
theorem kept_holds {N i l : Nat} {r : CsrRow R} {s : Scr R} {f g : Nat → R} {big : R → Bool}
    (h : s.Holds N l f) (hr : r.Is (kept i big (s.cols l) f)) (hfg : ∀ j, j < N → f j = g j) :
    r.Holds N (fun j => if i = j then g j else Spec.keep big (g j)) := by
  refine hr.holds (Ell.good_filter h (fun j x => decide (j = i) || big x)) (fun j hj => ?_)
  unfold kept
  rw [Ell.den_filter h (fun j x => decide (j = i) || big x), hfg j hj]
  by_cases hij : i = j
  · subst hij; simp
  · simp [hij, Ne.symm hij, Spec.keep]

theorem wp_multAB {N : Nat} {A B C : Csr R} {a b c : Spec.Mat R} (hA : A.Rep N a) (hB : B.Rep N b)
    (hC : C.Rep N c) (big : R → Bool) {sc : Sched} (hsc : IsSched 0 N sc) :
    (multAB A B C big sc).wp E (fun C' => C'.M = C.M ∧
      C'.Rep N (Spec.keepOff big (Spec.mul N a b)) ∧
      ∀ i, i < N → ∀ j ∈ (C'.row i).map Prod.fst, ∃ p ∈ A.row i, j ∈ (B.row p.1).map Prod.fst) := by
  unfold multAB
  rw [Res.wp_bind]
  refine Res.wp_mono (wp_forRowsS hsc hC.size (fun s : Scr R => s.Clean N)
    (fun i r => r.Holds N (c i))
    (fun i r => r.Holds N (Spec.keepOff big (Spec.mul N a b) i) ∧
      ∀ j ∈ r.list.map Prod.fst, ∃ p ∈ A.row i, j ∈ (B.row p.1).map Prod.fst) (fun _ => ()) ?_ hC.holds ?_) ?_
  · rw [hC.dim]; exact Scr.clean_clearScr N
  · intro i r s t hi hr hs
    rw [Res.wp_bind]
    refine Res.wp_mono (wp_accumProd hA hB hi hs) ?_
    rintro ⟨s1, l⟩ ⟨hH, hC1⟩
    simp only at hH hC1 ⊢
    rw [Res.wp_bind]
    refine Res.wp_mono (wp_flushRow (i := i) hr.is big hH 0) ?_
    rintro ⟨r2, s2, t2⟩ ⟨g1, g2, -⟩
    rw [Res.wp_pure]
    refine ⟨⟨kept_holds hH g1 (fun j hj => prod_value hA hB hi hj), fun j hj => ?_⟩, g2, trivial⟩
    simp only at hj
    rw [g1.2] at hj
    exact hC1 j (kept_cols hj)
  · rintro ⟨C', u⟩ ⟨h1, h2, h3, h4, -⟩
    rw [Res.wp_pure]
    exact ⟨h2, ⟨h1.trans hC.dim, h3, fun i hi => (h4 i hi).1⟩, fun i hi => (h4 i hi).2⟩

theorem wp_accumSquare {N : Nat} {X : Csr R} {a : Spec.Mat R} (hX : X.Rep N a)
    {i : Nat} (hi : i < N) {s : Scr R} (hs : s.Clean N) (t : R) :
    (accumSquare X i ((s, 0), t)).wp E (fun st =>
      st.1.1.Holds N st.1.2 (fun j => ((X.row i).map (fun p => p.2 * (X.row p.1).den j)).sum) ∧
      (∀ j ∈ st.1.1.cols st.1.2, ∃ p ∈ X.row i, j ∈ (X.row p.1).map Prod.fst) ∧
      st.2 = t + a i i) := by
  unfold accumSquare
  rw [hX.read hi, Res.bind_ok, (hX.is hi).fold, ← hX.den hi hi]
  refine wp_forList (fun done (st : (Scr R × Nat) × R) =>
    st.1.1.Holds N st.1.2 (fun j => (done.map (fun p => p.2 * (X.row p.1).den j)).sum) ∧
      (∀ j ∈ st.1.1.cols st.1.2, ∃ p ∈ done, j ∈ (X.row p.1).map Prod.fst) ∧
      st.2 = t + SRow.den done i) ?_ ?_
    (fun _ h => h)
  · exact ⟨hs.holds.congr (by simp), by simp [Scr.cols], by simp⟩
  · rintro done p rest hL ⟨⟨s', l'⟩, t'⟩ ⟨hH, hC, ht⟩
    have hp : p.1 < N := (hX.good hi).2 p (by rw [hL]; simp)
    simp only at hH hC ht ⊢
    rw [hX.read hp, Res.bind_ok, Res.wp_bind]
    refine Res.wp_mono (wp_accumScaled (hX.is hp) (hX.good hp).2 hH (by omega) p.2) ?_
    rintro ⟨s2, l2⟩ ⟨h2, c2⟩
    rw [Res.wp_pure]
    refine ⟨h2.congr (fun j => by simp), fun j hj => ?_, ?_⟩
    · rcases c2 j hj with h | h
      · obtain ⟨q, hq, hq'⟩ := hC j h
        exact ⟨q, by simp [hq], hq'⟩
      · exact ⟨p, by simp, h⟩
    simp only [SRow.den_append, SRow.den_cons, SRow.den_nil, add_zero]
    rw [ht]
    split <;> ring

theorem wp_multX2 {N : Nat} {X C : Csr R} {a c : Spec.Mat R} (hX : X.Rep N a)
    (hC : C.Rep N c) (big : R → Bool) {sc : Sched} (hsc : IsSched 0 N sc) :
    (multX2 X C big sc).wp E (fun r => r.1.M = C.M ∧
      r.1.Rep N (Spec.keepOff big (Spec.mul N a a)) ∧
      (∀ i, i < N → ∀ j ∈ (r.1.row i).map Prod.fst, ∃ p ∈ X.row i, j ∈ (X.row p.1).map Prod.fst) ∧
      r.2 = (Spec.tr N a, Spec.tr N (Spec.mul N a a))) := by
  unfold multX2
  refine Res.wp_mono (wp_forRowsS hsc hC.size (fun s : Scr R => s.Clean N)
    (fun i r => r.Holds N (c i))
    (fun i r => r.Holds N (Spec.keepOff big (Spec.mul N a a) i) ∧
      ∀ j ∈ r.list.map Prod.fst, ∃ p ∈ X.row i, j ∈ (X.row p.1).map Prod.fst)
    (fun i => (a i i, Spec.mul N a a i i)) ?_ hC.holds ?_) ?_
  · rw [hX.dim]; exact Scr.clean_clearScr N
  · rintro i r s ⟨t1, t2⟩ hi hr hs
    rw [Res.wp_bind]
    refine Res.wp_mono (wp_accumSquare hX hi hs t1) ?_
    rintro ⟨⟨s1, l⟩, t1'⟩ ⟨hH, hC1, ht1⟩
    simp only at hH hC1 ht1 ⊢
    rw [Res.wp_bind]
    refine Res.wp_mono (wp_flushRow (i := i) hr.is big hH t2) ?_
    rintro ⟨r2, s2, t2'⟩ ⟨g1, g2, g3⟩
    rw [Res.wp_pure]
    refine ⟨⟨kept_holds hH g1 (fun j hj => prod_value hX hX hi hj), fun j hj => ?_⟩, g2, ?_⟩
    · simp only at hj
      rw [g1.2] at hj
      exact hC1 j (kept_cols hj)
    simp only at g3 ⊢
    rw [ht1, g3, prod_value hX hX hi hi]; rfl
  · rintro ⟨C', u⟩ ⟨h1, h2, h3, h4, h5⟩
    refine ⟨h2, ⟨h1.trans hC.dim, h3, fun i hi => (h4 i hi).1⟩, fun i hi => (h4 i hi).2, ?_⟩
    simp only at h5 ⊢
    rw [h5]
    refine Prod.ext ?_ ?_
    · simp only [Prod.fst_add, Prod.fst_sum, zero_add]; rfl
    · simp only [Prod.snd_add, Prod.snd_sum, zero_add]; rfl

/-! ## Element-wise products -/

theorem wp_hadInner {N k : Nat} {b : CsrRow R} {L : SRow R} (hb : b.Is L) (a : R) (hk : k < N)
    {s : Scr R} {l : Nat} (hx : s.x.size = N) :
    (b.fold (s, l) fun kb v (st : Scr R × Nat) =>
      if k = kb then do
        let xk ← st.1.x.read k
        let x ← st.1.x.write k (xk + a * v)
        pure ({ st.1 with x := x }, st.2)
      else pure st).wp E (fun st => st.2 = l ∧ st.1.ix = s.ix ∧ st.1.jx = s.jx ∧
        st.1.x.size = N ∧ (∀ q, q ≠ k → st.1.x.get q = s.x.get q) ∧
        st.1.x.get k = s.x.get k + a * L.den k) := by
  rw [hb.fold]
  refine wp_forList (fun done (st : Scr R × Nat) => st.2 = l ∧ st.1.ix = s.ix ∧ st.1.jx = s.jx ∧
        st.1.x.size = N ∧ (∀ q, q ≠ k → st.1.x.get q = s.x.get q) ∧
        st.1.x.get k = s.x.get k + a * SRow.den done k) ?_ ?_ (fun _ h => h)
  · exact ⟨rfl, rfl, rfl, hx, fun _ _ => rfl, by simp⟩
  · rintro done p rest hL ⟨s2, l2⟩ ⟨g1, g2, g3, g4, g5, g6⟩
    simp only at g1 g2 g3 g4 g5 g6 ⊢
    by_cases he : k = p.1
    · rw [if_pos he, Arr.read_ok (by omega), Res.bind_ok, Arr.write_ok _ (by omega), Res.bind_ok,
        Res.wp_pure]
      refine ⟨g1, g2, g3, g4, fun q hq => ?_, ?_⟩
      · simp only; rw [upd_ne _ _ hq]; exact g5 q hq
      · simp only
        rw [upd_same, g6, SRow.den_append]
        simp [he, mul_add, add_assoc]
    · rw [if_neg he, Res.wp_pure]
      refine ⟨g1, g2, g3, g4, g5, ?_⟩
      rw [g6, SRow.den_append]
      simp [Ne.symm he]

theorem wp_touch {N : Nat} {s : Scr R} {l : Nat} {f : Nat → R} (h : s.Holds N l f)
    {mark k : Nat} (hm : mark ≠ 0) (hk : k < N) (hnot : k ∉ s.cols l) :
    (touch mark k (s, l)).wp E (fun st => st.1.Holds N st.2 f ∧ st.1.cols st.2 = s.cols l ++ [k]) := by
  unfold touch
  have hix : k < s.ix.size := by rw [h.szi]; exact hk
  have hx : k < s.x.size := by rw [h.szx]; exact hk
  have ht : s.ix.get k = 0 := (h.mark k hk).2 hnot
  have hl : l < s.jx.size := by rw [h.szj]; exact h.lt_of_not_mem hk hnot
  simp only [Res.wp_bind, Arr.wp_read, Arr.wp_write, if_pos ht, Res.wp_ok, Res.pure_eq,
    hix, hx, hl, true_and]
  have hc : (Scr.mk ⟨s.x.size, upd s.x.get k 0⟩
      ⟨s.ix.size, upd s.ix.get k mark⟩ ⟨s.jx.size, upd s.jx.get l k⟩).cols (l + 1)
      = s.cols l ++ [k] := by
    rw [cols_succ]
    simp only [upd_same]
    congr 1
    unfold cols
    apply List.map_congr_left
    intro q hq
    have : q < l := by simpa using hq
    exact upd_ne _ _ (by omega)
  refine ⟨⟨h.szx, h.szi, h.szj, ?_, ?_, ?_, ?_, ?_⟩, hc⟩
  · rw [hc, List.nodup_append]
    refine ⟨h.nodup, by simp, ?_⟩
    intro a ha b hb
    simp at hb; subst hb
    rintro rfl; exact hnot ha
  · rw [hc]; intro a ha
    rcases List.mem_append.1 ha with ha | ha
    · exact h.lt a ha
    · simp at ha; subst ha; exact hk
  · intro j hj
    rw [hc]
    by_cases hjk : j = k
    · subst hjk; simp [hm]
    · simp [upd_ne _ _ hjk, h.mark j hj, hjk]
  · rw [hc]; intro j hj
    by_cases hjk : j = k
    · subst hjk; simp [h.out j hnot]
    · have : j ∈ s.cols l := by simpa [hjk] using hj
      simp [upd_ne _ _ hjk, h.val j this]
  · rw [hc]; intro j hj
    simp only [List.mem_append, List.mem_singleton, not_or] at hj
    exact h.out j hj.1

theorem wp_accumHad {N : Nat} {A B : Csr R} {a b : Spec.Mat R} (hA : A.Rep N a) (hB : B.Rep N b)
    {i : Nat} (hi : i < N) {s : Scr R} (hs : s.Clean N) :
    (accumHad A B i (s, 0)).wp E (fun st =>
      st.1.Holds N st.2 (fun j => (A.row i).den j * (B.row i).den j)) := by
  unfold accumHad
  rw [hA.read hi, Res.bind_ok, (hA.is hi).fold]
  refine wp_forList (fun done (st : Scr R × Nat) =>
    st.1.Holds N st.2 (fun j => SRow.den done j * (B.row i).den j) ∧
    st.1.cols st.2 = done.map Prod.fst) ?_ ?_ (fun _ h => h.1)
  · exact ⟨hs.holds.congr (by simp), by simp [Scr.cols]⟩
  · rintro done p rest hL ⟨s1, l1⟩ ⟨hH, hC⟩
    have hg := hA.good hi
    have hp : p.1 < N := hg.2 p (by rw [hL]; simp)
    have hnot : p.1 ∉ s1.cols l1 := by
      simp only at hC
      rw [hC]
      have := hg.1
      rw [hL, List.map_append, List.nodup_append] at this
      intro hm
      exact this.2.2 _ hm _ (by simp) rfl
    have hden : SRow.den done p.1 = 0 := SRow.den_of_not_mem (by simp only at hC; rw [← hC]; exact hnot)
    simp only at hH hC ⊢
    rw [Res.wp_bind]
    refine Res.wp_mono (wp_touch hH (Nat.succ_ne_zero i) hp hnot) ?_
    rintro ⟨s2, l2⟩ ⟨h2, c2⟩
    simp only at h2 c2
    rw [hB.read hi, Res.bind_ok]
    refine Res.wp_mono (wp_hadInner (hB.is hi) p.2 hp h2.szx) ?_
    rintro ⟨⟨x3, ix3, jx3⟩, l3⟩ ⟨g1, g2, g3, g4, g5, g6⟩
    simp only at g1 g2 g3 g4 g5 g6
    subst g1 g2 g3
    have hc3 : (Scr.mk x3 s2.ix s2.jx).cols l3 = s2.cols l3 := rfl
    have hpm : p.1 ∈ s2.cols l3 := by rw [c2]; simp
    have hx2 : s2.x.get p.1 = 0 := by rw [h2.val _ hpm, hden, zero_mul]
    have key : ∀ j, SRow.den (done ++ [p]) j * (B.row i).den j =
        if j = p.1 then p.2 * (B.row i).den j else SRow.den done j * (B.row i).den j := by
      intro j
      rw [SRow.den_append, SRow.den_cons, SRow.den_nil, add_zero]
      by_cases hj : j = p.1
      · subst hj; simp [hden]
      · simp [hj, Ne.symm hj]
    refine ⟨⟨g4, h2.szi, h2.szj, h2.nodup, h2.lt, h2.mark, ?_, ?_⟩, ?_⟩
    · intro j hj
      rw [key j]
      simp only
      by_cases he : j = p.1
      · subst he; rw [if_pos rfl, g6, hx2, zero_add]
      · rw [if_neg he, g5 j he, h2.val j hj]
    · intro j hj
      rw [hc3, c2, List.mem_append, List.mem_singleton, not_or] at hj
      rw [key j, if_neg hj.2]
      exact hH.out j hj.1
    · simp only
      rw [hc3, c2, hC]; simp

theorem wp_elementMultiply {N : Nat} {A B C : Csr R} {a b c : Spec.Mat R} (hA : A.Rep N a)
    (hB : B.Rep N b) (hC : C.Rep N c) (big : R → Bool) {sc : Sched} (hsc : IsSched 0 N sc) :
    (elementMultiply A B C big sc).wp E (fun C' => C'.M = C.M ∧
      C'.Rep N (Spec.keepOff big (fun i j => a i j * b i j))) := by
  unfold elementMultiply
  rw [Res.wp_bind]
  refine Res.wp_mono (wp_forRowsS hsc hC.size (fun s : Scr R => s.Clean N)
    (fun i r => r.Holds N (c i))
    (fun i r => r.Holds N (Spec.keepOff big (fun i j => a i j * b i j) i)) (fun _ => ()) ?_
    hC.holds ?_) ?_
  · rw [hC.dim]; exact Scr.clean_clearScr N
  · intro i r s t hi hr hs
    rw [Res.wp_bind]
    refine Res.wp_mono (wp_accumHad hA hB hi hs) ?_
    rintro ⟨s1, l⟩ hH
    simp only at hH ⊢
    rw [Res.wp_bind]
    refine Res.wp_mono (wp_flushRow (i := i) hr.is big hH 0) ?_
    rintro ⟨r2, s2, t2⟩ ⟨g1, g2, -⟩
    rw [Res.wp_pure]
    exact ⟨kept_holds hH g1 (fun j hj => by rw [hA.den hi hj, hB.den hi hj]), g2, trivial⟩
  · rintro ⟨C', u⟩ ⟨h1, h2, h3, h4, -⟩
    rw [Res.wp_pure]
    exact ⟨h2, h1.trans hC.dim, h3, h4⟩

end Csr

end Bml
