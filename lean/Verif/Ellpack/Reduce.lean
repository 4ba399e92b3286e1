import Verif.Ellpack.Kernel
import Verif.Ellpack.Model2

/-!
# ELLPACK reductions: trace, trace of a product, sums of squares, norms
-/

set_option linter.unusedSectionVars false

namespace Bml

/-- A parallel reduction under any schedule. -/
theorem wp_reduce {T : Type} [AddCommMonoid T] {E : Prop} {lo hi : Nat} {sc : Sched}
    (hsc : IsSched lo hi sc) {t0 : T} {f : Nat × Nat → T → Res T} (r : Nat → T)
    (hf : ∀ th i t, lo ≤ i → i < hi → (f (th, i) t).wp E (fun t' => t' = t + r i)) :
    (forList sc t0 f).wp E (fun t => t = t0 + ∑ i ∈ Finset.Ico lo hi, r i) := by
  refine Res.wp_mono (wp_rowsD hsc (G := fun done t => t = t0 + (done.map r).sum)
    (P := fun _ _ => True) (Q := fun _ _ => True) (by simp) (fun _ _ _ => trivial) ?_) ?_
  · rintro done th i t h1 h2 hG -
    refine Res.wp_mono (hf th i t h1 h2) ?_
    rintro t' rfl
    exact ⟨by rw [hG]; simp [add_assoc], trivial, fun _ _ _ _ => ⟨fun h => h, fun h => h⟩⟩
  · rintro t ⟨h, -⟩
    rw [h, hsc.sum_eq]

/-- A parallel reduction with per-thread scratch. -/
theorem wp_reduceS {S T : Type} [AddCommMonoid T] {E : Prop} {lo hi : Nat} {sc : Sched}
    (hsc : IsSched lo hi sc) {s0 : Nat → S} {t0 : T} (f : Nat → S → T → Res (S × T))
    (I : S → Prop) (hI : ∀ th, I (s0 th)) (r : Nat → T)
    (hf : ∀ i s t, lo ≤ i → i < hi → I s →
      (f i s t).wp E (fun st => I st.1 ∧ st.2 = t + r i)) :
    (forList sc (s0, t0) fun ti (st : (Nat → S) × T) => do
      let (s, t) ← f ti.2 (st.1 ti.1) st.2
      pure (upd st.1 ti.1 s, t)).wp E
      (fun st => st.2 = t0 + ∑ i ∈ Finset.Ico lo hi, r i) := by
  refine Res.wp_mono (wp_rowsD hsc
    (G := fun done st => (∀ th, I (st.1 th)) ∧ st.2 = t0 + (done.map r).sum)
    (P := fun _ _ => True) (Q := fun _ _ => True) ⟨hI, by simp⟩ (fun _ _ _ => trivial) ?_) ?_
  · rintro done th i ⟨s, t⟩ h1 h2 ⟨hs, hG⟩ -
    simp only [Res.wp_bind]
    refine Res.wp_mono (hf i (s th) t h1 h2 (hs th)) ?_
    rintro ⟨s', t'⟩ ⟨k1, k2⟩
    simp only at k1 k2 hG
    subst k2
    refine ⟨⟨?_, by rw [hG]; simp [add_assoc]⟩, trivial, fun _ _ _ _ => ⟨fun h => h, fun h => h⟩⟩
    intro th'
    simp only
    by_cases h : th' = th
    · subst h; simpa using k1
    · rw [upd_ne _ _ h]; exact hs th'
  · rintro ⟨s, t⟩ ⟨⟨-, h⟩, -⟩
    simp only at h ⊢
    rw [h, hsc.sum_eq]

namespace Ell

variable {R : Type} [CommRing R] {E : Prop}

/-- The generic "sum over the stored entries of a row" loop. -/
theorem wp_rowSum {A : Ell R} (hA : A.Shape) {i : Nat} (hi : i < A.N)
    (hle : A.nnz.get i ≤ A.M) (g : Nat → R → R) {t : R} {f : Nat → R → Res R}
    (hf : ∀ k t, k < A.nnz.get i → (f k t).wp E
      (fun t' => t' = t + g (A.idx.get (i * A.M + k)) (A.val.get (i * A.M + k)))) :
    (loop (A.nnz.get i) t f).wp E (fun t' => t' = t + ((A.row i).map (fun p => g p.1 p.2)).sum)
    := by
  refine wp_loop' (fun n t' => t' = t + ((A.rowPre i n).map (fun p => g p.1 p.2)).sum)
    (by simp) ?_ (fun _ h => h)
  rintro n hn t' rfl
  refine Res.wp_mono (hf n _ hn) ?_
  rintro t'' rfl
  simp [rowPre_succ, add_assoc]

theorem wp_sumSquares {N lo hi : Nat} {A : Ell R} {a : Spec.Mat R} (hA : A.Rep N a)
    {sc : Sched} (hsc : IsSched lo hi sc) (hhi : hi ≤ N) :
    (sumSquares A sc).wp E
      (fun t => t = ∑ i ∈ Finset.Ico lo hi, ∑ j ∈ Finset.range N, a i j * a i j) := by
  unfold sumSquares
  refine Res.wp_mono (wp_reduce hsc
    (fun i => ∑ j ∈ Finset.range N, a i j * a i j) ?_) (by rintro t rfl; simp)
  intro th i t h1 h2
  simp only
  have hi : i < N := by omega
  rw [read_nnz hA.shape (by rw [hA.dim]; exact hi), Res.bind_ok]
  refine Res.wp_mono (wp_rowSum hA.shape (by rw [hA.dim]; exact hi) (hA.le i hi)
    (fun _ v => v * v) ?_) ?_
  · intro k t hk
    rw [read_val hA.shape (by rw [hA.dim]; exact hi) (by have := hA.le i hi; omega), Res.bind_ok]
    simp
  · rintro t' rfl
    congr 1
    rw [← SRow.sum_den_map (hA.good i hi) (fun _ v => v * v) (by simp)]
    apply Finset.sum_congr rfl
    intro j hj
    rw [hA.den i j hi (by simpa using hj)]

theorem wp_sumSquaresSub {N lo hi core : Nat} {A : Ell R} {a : Spec.Mat R} (hA : A.Rep N a)
    {sc : Sched} (hsc : IsSched lo hi sc) (hhi : hi ≤ N) (hcore : core ≤ N) :
    (sumSquaresSub A core sc).wp E
      (fun t => t = ∑ i ∈ Finset.Ico lo hi, ∑ j ∈ Finset.range core, a i j * a i j) := by
  unfold sumSquaresSub
  refine Res.wp_mono (wp_reduce hsc
    (fun i => ∑ j ∈ Finset.range core, a i j * a i j) ?_) (by rintro t rfl; simp)
  intro th i t h1 h2
  simp only
  have hi : i < N := by omega
  rw [read_nnz hA.shape (by rw [hA.dim]; exact hi), Res.bind_ok]
  refine Res.wp_mono (wp_rowSum hA.shape (by rw [hA.dim]; exact hi) (hA.le i hi)
    (fun k v => if k < core then v * v else 0) ?_) ?_
  · intro k t hk
    have := hA.le i hi
    rw [read_idx hA.shape (by rw [hA.dim]; exact hi) (by omega), Res.bind_ok]
    split
    · rw [read_val hA.shape (by rw [hA.dim]; exact hi) (by omega), Res.bind_ok]
      simp
    · simp
  · rintro t' rfl
    congr 1
    rw [← SRow.sum_den_map (hA.good i hi) (fun k v => if k < core then v * v else 0) (by simp)]
    rw [← Finset.sum_filter]
    have : (Finset.range N).filter (fun k => k < core) = Finset.range core := by
      ext k; simp; omega
    rw [this]
    apply Finset.sum_congr rfl
    intro j hj
    have : j < core := by simpa using hj
    rw [hA.den i j hi (by omega)]

theorem wp_trace {N lo hi : Nat} {A : Ell R} {a : Spec.Mat R} (hA : A.Rep N a)
    {sc : Sched} (hsc : IsSched lo hi sc) (hhi : hi ≤ N) :
    (trace A sc).wp E (fun t => t = ∑ i ∈ Finset.Ico lo hi, a i i) := by
  unfold trace
  refine Res.wp_mono (wp_reduce hsc (fun i => a i i) ?_) (by rintro t rfl; simp)
  intro th i t h1 h2
  simp only
  have hi : i < N := by omega
  rw [read_nnz hA.shape (by rw [hA.dim]; exact hi), Res.bind_ok]
  unfold traceRow
  rw [findFrom_eq hA.shape (by rw [hA.dim]; exact hi) _ 0 (by have := hA.le i hi; omega),
    Res.bind_ok]
  simp only [Nat.zero_add, List.drop_zero, Res.pure_eq, Res.wp_ok]
  congr 1
  have := find_den (hA.good i hi) i
  unfold row at this
  rw [this]
  exact hA.den i i hi hi

/-- The search of `bml_getVector_ellpack`: correct as soon as the searched row is not
empty. -/
theorem vecSearch_eq {A : Ell R} (hs : A.Shape) {i c : Nat} (hi : i < A.N) :
    ∀ (fuel p : Nat) (cur : R), p + fuel ≤ A.M →
      A.vecSearch i c p fuel cur = .ok (((A.rowPre i (p + fuel)).drop p).find?
        (fun q => decide (q.1 = c)) |>.elim (if fuel = 0 then cur else 0) Prod.snd) := by
  intro fuel
  induction fuel with
  | zero =>
    intro p cur _
    rw [Nat.add_zero, List.drop_eq_nil_of_le (by simp)]
    rfl
  | succ fuel ih =>
    intro p cur hp
    have hdrop : (A.rowPre i (p + (fuel + 1))).drop p
        = (A.idx.get (i * A.M + p), A.val.get (i * A.M + p))
          :: (A.rowPre i (p + 1 + fuel)).drop (p + 1) := by
      rw [show p + (fuel + 1) = p + 1 + fuel by ring]
      rw [List.drop_eq_getElem_cons (by simp; omega)]
      simp [rowPre]
    rw [hdrop]
    simp only [vecSearch, read_idx hs hi (show p < A.M by omega), Res.bind_ok,
      read_val hs hi (show p < A.M by omega)]
    by_cases hk : A.idx.get (i * A.M + p) = c
    · simp [hk]
    · rw [if_neg hk, ih (p + 1) 0 (by omega)]
      simp [hk]

theorem vecSearch_den {N : Nat} {A : Ell R} {a : Spec.Mat R} (hA : A.Rep N a) {i c : Nat}
    (hi : i < N) (hc : c < N) (hne : A.nnz.get i ≠ 0) (cur : R) :
    A.vecSearch i c 0 (A.nnz.get i) cur = .ok (a i c) := by
  rw [vecSearch_eq hA.shape (by rw [hA.dim]; exact hi) _ 0 _ (by have := hA.le i hi; omega)]
  simp only [Nat.zero_add, List.drop_zero, if_neg hne]
  have := find_den (hA.good i hi) c
  unfold row at this
  rw [this]
  rw [← hA.den i c hi hc]; rfl

theorem wp_getVector {N : Nat} {A : Ell R} {a : Spec.Mat R} (hA : A.Rep N a) {i : Nat}
    (hi : i < N) (hne : A.nnz.get i ≠ 0) {jj : Arr Nat} {off cnt : Nat}
    (hjj : ∀ k, k < cnt → off + k < jj.size ∧ jj.get (off + k) < N) (junk : Nat → R) :
    (A.getVector jj off i cnt junk).wp E (fun rv => rv.size = cnt ∧
      ∀ k, k < cnt → rv.get k = a i (jj.get (off + k))) := by
  unfold getVector
  refine wp_loop' (fun n rv => rv.size = cnt ∧ ∀ k, k < n → rv.get k = a i (jj.get (off + k)))
    ⟨rfl, by simp⟩ ?_ (fun _ h => h)
  rintro n hn rv ⟨h1, h2⟩
  rw [read_nnz hA.shape (by rw [hA.dim]; exact hi), Res.bind_ok,
    Arr.read_ok (hjj n hn).1, Res.bind_ok, Arr.read_ok (by omega), Res.bind_ok,
    vecSearch_den hA hi (hjj n hn).2 hne, Res.bind_ok, Arr.wp_write]
  refine ⟨by omega, h1, ?_⟩
  intro k hk
  by_cases hkn : k = n
  · subst hkn; simp
  · simp [upd_ne _ _ hkn, h2 k (by omega)]

theorem wp_traceMult {N lo hi : Nat} {A B : Ell R} {a b : Spec.Mat R} (hA : A.Rep N a)
    (hB : B.Rep N b) (hM : A.M = B.M) {sc : Sched} (hsc : IsSched lo hi sc) (hhi : hi ≤ N)
    (hne : ∀ i, lo ≤ i → i < hi → A.nnz.get i ≠ 0 → B.nnz.get i ≠ 0)
    (junk : Nat → Nat → R) :
    (traceMult A B sc junk).wp E
      (fun t => t = ∑ i ∈ Finset.Ico lo hi, ∑ j ∈ Finset.range N, a i j * b i j) := by
  unfold traceMult
  rw [if_neg (by rw [hA.dim, hB.dim]; simp [hM])]
  refine Res.wp_mono (wp_reduce hsc
    (fun i => ∑ j ∈ Finset.range N, a i j * b i j) ?_) (by rintro t rfl; simp)
  intro th i t h1 h2
  simp only
  have hi : i < N := by omega
  have hle := hA.le i hi
  have hiA : i < A.N := by rw [hA.dim]; exact hi
  rw [read_nnz hA.shape hiA, Res.bind_ok, Res.wp_bind]
  have hval : t + ((A.row i).map (fun p => p.2 * b i p.1)).sum
      = t + ∑ j ∈ Finset.range N, a i j * b i j := by
    congr 1
    rw [← SRow.sum_den_map (hA.good i hi) (fun k v => v * b i k) (by simp)]
    apply Finset.sum_congr rfl
    intro j hj
    rw [hA.den i j hi (by simpa using hj)]
  by_cases h0 : A.nnz.get i = 0
  · have hrow : A.row i = [] := List.length_eq_zero_iff.1 (by simp [h0])
    rw [hrow] at hval
    simp only [h0, getVector, loop_zero, Res.wp_ok]
    simpa using hval
  · have hB0 := hne i h1 h2 h0
    refine Res.wp_mono (wp_getVector hB hi hB0 (jj := A.idx) ?_ (junk i)) ?_
    · intro k hk
      have hlt := addr_lt (k := k) hiA (by omega : k < A.M)
      refine ⟨by rw [hA.shape.idx_size]; simpa [ROWMAJOR] using hlt, ?_⟩
      have := (hA.good i hi).2 _ (mem_rowPre.2 ⟨k, hk, rfl⟩)
      simpa [ROWMAJOR] using this
    · rintro rv ⟨hsz, hrv⟩
      refine Res.wp_mono (wp_rowSum hA.shape hiA hle (fun k v => v * b i k) ?_) ?_
      · intro k t hk
        rw [read_val hA.shape hiA (by omega), Res.bind_ok, Arr.read_ok (by omega), Res.bind_ok]
        rw [hrv k hk]
        simp [ROWMAJOR]
      · rintro t' rfl
        exact hval

end Ell

end Bml
