import Verif.Round.Error
import Verif.Props.Reproducible

/-!
# Property C83: rounding errors of ELLPACK operations

`F` is the type of the machine numbers, `val x` the real or complex number that `x` stands for.
`Spec.Rounds val u` says that every operation has a relative error of at most `u`.  The results are
compared with exact sums and products of the exact values of the elements of the operands.
-/

set_option linter.unusedSectionVars false

namespace Bml.Props

variable {F : Type} [Zero F] [One F] [Add F] [Mul F]
variable {K : Type} [NormedField K] {val : F → K} {u : ℝ}

/-- The error of dropping a number below the threshold. -/
theorem drop_error (h : Spec.Rounds val u) {big : F → Bool} {τ : ℝ}
    (hτ : ∀ x, big x = false → ‖val x‖ ≤ τ) (hτ0 : 0 ≤ τ) (x : F) :
    ‖val (Spec.keep big x) - val x‖ ≤ τ := by
  unfold Spec.keep
  split
  · simpa using hτ0
  · rename_i hb
    rw [h.zero, zero_sub, norm_neg]
    exact hτ x (by simpa using hb)

/-- The error of an element of a computed product. -/
theorem product_error (h : Spec.Rounds val u) {N : Nat} {A B : Ell F} {a b : Spec.Mat F}
    (hA : A.Represents N a) (hB : B.Represents N b) {big : F → Bool} {τ : ℝ}
    (hτ : ∀ x, big x = false → ‖val x‖ ≤ τ) (hτ0 : 0 ≤ τ) {i j : Nat} (hi : i < N) (hj : j < N) :
    ‖val (SRow.look (Spec.productRow big (A.row i) B.row i) j)
        - ∑ k ∈ Finset.range N, val (a i k) * val (b k j)‖
      ≤ ((1 + u) ^ A.nnz.get i - 1) * (∑ k ∈ Finset.range N, ‖val (a i k)‖ * ‖val (b k j)‖)
        + if i = j then 0 else τ := by
  obtain ⟨sA, lA⟩ := hA.stores
  obtain ⟨sB, lB⟩ := hB.stores
  have he := h.product (sA.good i hi) sB.good j
  rw [← sA.nnz hi] at he
  rw [Finset.sum_congr rfl (g := fun k => val (a i k) * val (b k j)) (fun k hk => by
      rw [lA i k hi (Finset.mem_range.1 hk), lB k j (Finset.mem_range.1 hk) hj]),
    Finset.sum_congr rfl (g := fun k => ‖val (a i k)‖ * ‖val (b k j)‖) (fun k hk => by
      rw [lA i k hi (Finset.mem_range.1 hk), lB k j (Finset.mem_range.1 hk) hj])] at he
  rw [product_entry big (sA.good i hi).2 (fun k hk => (sB.good k hk).2) i j]
  simp only
  generalize Spec.summed (Spec.inColumn j (Spec.terms (A.row i) B.row)) = x at he ⊢
  by_cases hij : i = j
  · rw [if_pos (Or.inl hij), if_pos hij, add_zero]
    exact he
  · rw [if_neg hij]
    have hd := drop_error h hτ hτ0 x
    have : (if i = j ∨ big x = true then x else 0) = Spec.keep big x := by
      unfold Spec.keep
      simp [hij]
    rw [this]
    have := norm_sub_le_norm_sub_add_norm_sub (val (Spec.keep big x)) (val x)
      (∑ k ∈ Finset.range N, val (a i k) * val (b k j))
    linarith

/-- The error of an element of a computed sum. -/
theorem sum_error [DecidableEq F] (h : Spec.Rounds val u) {N : Nat} {L L' : List (Nat × F)}
    (hL : SRow.Good N L) (hL' : SRow.Good N L') (α β : F) {big : F → Bool} {τ : ℝ}
    (hτ : ∀ x, big x = false → ‖val x‖ ≤ τ) (hτ0 : 0 ≤ τ) (j : Nat) :
    ‖val (SRow.look (Spec.sumRow big α β L L') j)
        - (val α * val (SRow.look L j) + val β * val (SRow.look L' j))‖
      ≤ ((1 + u) ^ 2 - 1)
        * (‖val α‖ * ‖val (SRow.look L j)‖ + ‖val β‖ * ‖val (SRow.look L' j)‖) + τ := by
  rw [sum_entry big α β hL.2 hL'.2 j]
  have he := h.sum hL.1 hL'.1 α β j
  generalize Spec.summed (Spec.inColumn j (Spec.sumTerms α β L L')) = x at he ⊢
  have hd := drop_error h hτ hτ0 x
  have := norm_sub_le_norm_sub_add_norm_sub (val (Spec.keep big x)) (val x)
    (val α * val (SRow.look L j) + val β * val (SRow.look L' j))
  linarith

/-- **C83**, product: an element of the computed `A B` differs from the exact one by at most
`((1 + u)^n - 1) Σ |a_ik| |b_kj|`, with `n` the number of entries stored in row `i` of `A`, plus the
threshold off the diagonal. -/
theorem C83_product (h : Spec.Rounds val u) {N : Nat} {A B C : Ell F} {a b c : Spec.Mat F}
    (hA : A.Represents N a) (hB : B.Represents N b) (hC : C.Represents N c) {big : F → Bool} {τ : ℝ}
    (hτ : ∀ x, big x = false → ‖val x‖ ≤ τ) (hτ0 : 0 ≤ τ) {sc : Sched} (hsc : IsSched 0 N sc)
    (hfit : ∀ i, i < N → (Spec.fullProduct (A.row i) B.row).length ≤ C.M) :
    ∃ X x, Ell.multAB A B C big sc = .ok X ∧ X.Represents N x ∧ ∀ i j, i < N → j < N →
      ‖val (x i j) - ∑ k ∈ Finset.range N, val (a i k) * val (b k j)‖
        ≤ ((1 + u) ^ A.nnz.get i - 1) * (∑ k ∈ Finset.range N, ‖val (a i k)‖ * ‖val (b k j)‖)
          + if i = j then 0 else τ := by
  obtain ⟨X, e, hX, hr⟩ := C82_product hA hB hC big hsc hfit
  refine ⟨X, _, e, hX, fun i j hi hj => ?_⟩
  obtain ⟨sA, -⟩ := hA.stores
  obtain ⟨sB, -⟩ := hB.stores
  have := product_error h hA hB hτ hτ0 hi hj
  rw [product_entry big (sA.good i hi).2 (fun k hk => (sB.good k hk).2) i j] at this
  exact this

/-- **C83**, square: the same for `bml_multiply_x2`. -/
theorem C83_square (h : Spec.Rounds val u) {N : Nat} {A C : Ell F} {a c : Spec.Mat F}
    (hA : A.Represents N a) (hC : C.Represents N c) {big : F → Bool} {τ : ℝ}
    (hτ : ∀ x, big x = false → ‖val x‖ ≤ τ) (hτ0 : 0 ≤ τ) {sc : Sched} (hsc : IsSched 0 N sc)
    (hfit : ∀ i, i < N → (Spec.productRow big (A.row i) A.row i).length ≤ C.M) :
    ∃ X traces x, Ell.multX2 A C big sc = .ok (X, traces) ∧ X.Represents N x ∧
      ∀ i j, i < N → j < N →
      ‖val (x i j) - ∑ k ∈ Finset.range N, val (a i k) * val (a k j)‖
        ≤ ((1 + u) ^ A.nnz.get i - 1) * (∑ k ∈ Finset.range N, ‖val (a i k)‖ * ‖val (a k j)‖)
          + if i = j then 0 else τ := by
  obtain ⟨sA, -⟩ := hA.stores
  obtain ⟨sC, -⟩ := hC.stores
  obtain ⟨⟨X, tr⟩, e, hX⟩ := Res.wp_exists (Ell.wp_multX2_list (E := False) sA sC big hsc hfit)
  exact ⟨X, tr, _, e, hX.represents, fun i j hi hj => product_error h hA hA hτ hτ0 hi hj⟩

/-- **C83**, sum: an element of the computed `α A + β B` differs from the exact one by at most
`((1 + u)² - 1) (|α a| + |β b|)` plus the threshold. -/
theorem C83_add [DecidableEq F] (h : Spec.Rounds val u) {N : Nat} {A B : Ell F} {a b : Spec.Mat F}
    (hA : A.Represents N a) (hB : B.Represents N b) (α β : F) {big : F → Bool} {τ : ℝ}
    (hτ : ∀ x, big x = false → ‖val x‖ ≤ τ) (hτ0 : 0 ≤ τ) {sc : Sched} (hsc : IsSched 0 N sc)
    (hfit : ∀ i, i < N → (Spec.sumRow big α β (A.row i) (B.row i)).length ≤ A.M) :
    ∃ X x, Ell.add A B α β big sc = .ok X ∧ X.Represents N x ∧ ∀ i j, i < N → j < N →
      ‖val (x i j) - (val α * val (a i j) + val β * val (b i j))‖
        ≤ ((1 + u) ^ 2 - 1) * (‖val α‖ * ‖val (a i j)‖ + ‖val β‖ * ‖val (b i j)‖) + τ := by
  obtain ⟨sA, lA⟩ := hA.stores
  obtain ⟨sB, lB⟩ := hB.stores
  obtain ⟨X, e, hX⟩ := Res.wp_exists (Ell.wp_add_list (E := False) sA sB α β big hsc hfit)
  refine ⟨X, _, e, hX.represents, fun i j hi hj => ?_⟩
  have := sum_error h (sA.good i hi) (sB.good i hi) α β hτ hτ0 j
  rwa [lA i j hi hj, lB i j hi hj] at this

/-- **C83**, general product: an element of the computed `α A B + β C` differs from the exact one by
at most `((1 + u)² - 1) |β c| + |α| (((1 + u)^(n + 2) - 1) Σ |a_ik| |b_kj| + (1 + u)² τ) + τ`, where
the inner `τ` is there off the diagonal only. -/
theorem C83_multiply [DecidableEq F] (h : Spec.Rounds val u) {N : Nat} {A B C : Ell F}
    {a b c : Spec.Mat F} (hA : A.Represents N a) (hB : B.Represents N b) (hC : C.Represents N c)
    (α β : F) {big : F → Bool} {τ : ℝ}
    (hτ : ∀ x, big x = false → ‖val x‖ ≤ τ) (hτ0 : 0 ≤ τ) {sc sc' : Sched} (hsc : IsSched 0 N sc)
    (hsc' : IsSched 0 N sc') (jv : Nat → F) (ji : Nat → Nat)
    (hfit : ∀ i, i < N → (Spec.fullProduct (A.row i) B.row).length ≤ C.M ∧
      (Spec.sumRow big β α (C.row i) (Spec.productRow big (A.row i) B.row i)).length ≤ C.M) :
    ∃ X x, Ell.multiply A B C α β big sc sc' jv ji = .ok X ∧ X.Represents N x ∧
      ∀ i j, i < N → j < N →
      ‖val (x i j) - (val α * (∑ k ∈ Finset.range N, val (a i k) * val (b k j))
          + val β * val (c i j))‖
        ≤ ((1 + u) ^ 2 - 1) * (‖val β‖ * ‖val (c i j)‖)
          + ‖val α‖ * (((1 + u) ^ (A.nnz.get i + 2) - 1)
              * (∑ k ∈ Finset.range N, ‖val (a i k)‖ * ‖val (b k j)‖)
            + (1 + u) ^ 2 * if i = j then 0 else τ) + τ := by
  obtain ⟨sA, lA⟩ := hA.stores
  obtain ⟨sB, lB⟩ := hB.stores
  obtain ⟨sC, lC⟩ := hC.stores
  have hw := Ell.wp_multiply_list sA sB sC α β big hsc hsc' jv ji fun i hi => (hfit i hi).2
  rcases hm : Ell.multiply A B C α β big sc sc' jv ji with X | _ | _
  · rw [hm] at hw
    refine ⟨X, _, rfl, hw.2.represents, fun i j hi hj => ?_⟩
    have hp := product_error h hA hB hτ hτ0 hi hj
    have hs := sum_error h (sC.good i hi)
      (Ell.good_product big i (sA.good i hi).2 (fun k hk => (sB.good k hk).2)) β α hτ hτ0 j
    rw [lC i j hi hj] at hs
    generalize SRow.look (Spec.productRow big (A.row i) B.row i) j = p at hp hs
    generalize val (SRow.look (Spec.sumRow big β α (C.row i)
      (Spec.productRow big (A.row i) B.row i)) j) = z at hs ⊢
    generalize hσ : ∑ k ∈ Finset.range N, val (a i k) * val (b k j) = σ at hp ⊢
    have hσS : ‖σ‖ ≤ ∑ k ∈ Finset.range N, ‖val (a i k)‖ * ‖val (b k j)‖ := by
      rw [← hσ]
      refine (norm_sum_le _ _).trans (le_of_eq ?_)
      exact Finset.sum_congr rfl fun k _ => norm_mul _ _
    generalize ∑ k ∈ Finset.range N, ‖val (a i k)‖ * ‖val (b k j)‖ = S at hp hσS ⊢
    generalize (if i = j then (0 : ℝ) else τ) = t at hp ⊢
    have h2 := h.one_le 2
    have hpn : ‖val p‖ ≤ (1 + u) ^ A.nnz.get i * S + t := by
      have := norm_le_norm_add_norm_sub σ (val p)
      rw [norm_sub_rev] at this
      linarith
    have h3 : ‖z - (val α * σ + val β * val (c i j))‖
        ≤ ‖z - (val β * val (c i j) + val α * val p)‖ + ‖val α‖ * ‖val p - σ‖ := by
      rw [← norm_mul]
      refine le_trans (le_of_eq ?_) (norm_add_le _ _)
      congr 1
      ring
    have h4 := mul_le_mul_of_nonneg_left hp (norm_nonneg (val α))
    have h5 := mul_le_mul_of_nonneg_left
      (mul_le_mul_of_nonneg_left hpn (norm_nonneg (val α))) (sub_nonneg.2 h2)
    rw [pow_add]
    nlinarith
  · rw [hm] at hw
    obtain ⟨i, hi, hn⟩ := hw
    exact absurd (hfit i hi).1 hn
  · rw [hm] at hw
    exact absurd hw (by simp [Res.wp])

/-- The rows that the threads `ts` process are all rows, each once. -/
theorem threads_perm {N : Nat} {sc : Sched} (hsc : IsSched 0 N sc) {ts : List Nat} (hn : ts.Nodup)
    (hts : ∀ e ∈ sc, e.1 ∈ ts) :
    (ts.flatMap fun t => (sc.filter fun e => decide (e.1 = t)).map Prod.snd).Perm (List.range N) := by
  have h1 : (ts.flatMap fun t => sc.filter fun e => decide (e.1 = t)).Perm sc := by
    clear hsc
    induction ts generalizing sc with
    | nil =>
      have : sc = [] := List.eq_nil_iff_forall_not_mem.2 fun e he => by simpa using hts e he
      subst this
      exact List.Perm.refl _
    | cons t ts ih =>
      rw [List.nodup_cons] at hn
      rw [List.flatMap_cons]
      have := ih (sc := sc.filter fun e => ! decide (e.1 = t)) hn.2 (fun e he => by
        obtain ⟨h1, h2⟩ := List.mem_filter.1 he
        rcases List.mem_cons.1 (hts e h1) with h | h
        · simp [h] at h2
        · exact h)
      have hsame : (ts.flatMap fun t' => sc.filter fun e => decide (e.1 = t'))
          = ts.flatMap fun t' => (sc.filter fun e => ! decide (e.1 = t)).filter
              fun e => decide (e.1 = t') := by
        apply List.flatMap_congr
        intro t' ht'
        rw [List.filter_filter]
        apply List.filter_congr
        intro e _
        have : t' ≠ t := fun e => hn.1 (e ▸ ht')
        by_cases h : e.1 = t' <;> simp_all
      rw [hsame]
      exact (List.Perm.append_left _ this).trans (List.filter_append_perm _ sc)
  rw [← List.map_flatMap]
  refine (h1.map _).trans ?_
  simpa [IsSched] using hsc

/-- **C83**, trace: every thread adds the diagonal elements of its rows, and the sums of the threads
are added in any order and bracketing; the total differs from the exact trace by at most
`((1 + u)^(N - 1) - 1) Σ |a_ii|`. -/
theorem C83_trace (h : Spec.Rounds val u) {N : Nat} {A : Ell F} {a : Spec.Mat F}
    (hA : A.Represents N a) {sc : Sched} (hsc : IsSched 0 N sc) {ts : List Nat} (hn : ts.Nodup)
    (hts : ∀ e ∈ sc, e.1 ∈ ts) :
    ∃ part : Nat → F, (∀ t, Ell.trace A (sc.filter fun e => decide (e.1 = t)) = .ok (part t)) ∧
      ∀ total, Spec.SumOf part ts total →
        ‖val total - ∑ i ∈ Finset.range N, val (a i i)‖
          ≤ ((1 + u) ^ (N - 1) - 1) * ∑ i ∈ Finset.range N, ‖val (a i i)‖ := by
  obtain ⟨sA, lA⟩ := hA.stores
  have hlt : ∀ t, ∀ e ∈ sc.filter (fun e => decide (e.1 = t)), e.2 < N := by
    intro t e he
    exact ((hsc.mem e.2).1 (List.mem_map_of_mem (List.mem_filter.1 he).1)).2
  have hp := fun t => Res.wp_exists (Ell.wp_trace_sum (E := False) sA (hlt t))
  choose part h1 h2 using hp
  refine ⟨part, h1, fun total ht => ?_⟩
  have hs := (Spec.SumOf.bind h2 ht).perm (threads_perm hsc hn hts)
  have he := (Spec.SumOf.error h hs (fun i => val (a i i)) 0 (fun i hi => by
    have hi := List.mem_range.1 hi
    simp [lA i i hi hi])).1
  rw [List.length_range, Nat.zero_add] at he
  exact he

/-- **C83**, sum of squares: the total differs from the exact one by at most
`((1 + u)^n - 1) Σ |a_ij|²`, with `n` the number of stored entries. -/
theorem C83_sum_squares (h : Spec.Rounds val u) {N : Nat} {A : Ell F} {a : Spec.Mat F}
    (hA : A.Represents N a) {sc : Sched} (hsc : IsSched 0 N sc) {ts : List Nat} (hn : ts.Nodup)
    (hts : ∀ e ∈ sc, e.1 ∈ ts) :
    ∃ part : Nat → F,
      (∀ t, Ell.sumSquares A (sc.filter fun e => decide (e.1 = t)) = .ok (part t)) ∧
      ∀ total, Spec.SumOf part ts total →
        ‖val total - ∑ i ∈ Finset.range N, ∑ j ∈ Finset.range N, val (a i j) * val (a i j)‖
          ≤ ((1 + u) ^ (∑ i ∈ Finset.range N, A.nnz.get i) - 1)
            * ∑ i ∈ Finset.range N, ∑ j ∈ Finset.range N, ‖val (a i j)‖ * ‖val (a i j)‖ := by
  obtain ⟨sA, lA⟩ := hA.stores
  have hlt : ∀ t, ∀ e ∈ sc.filter (fun e => decide (e.1 = t)), e.2 < N := by
    intro t e he
    exact ((hsc.mem e.2).1 (List.mem_map_of_mem (List.mem_filter.1 he).1)).2
  have hp := fun t => Res.wp_exists (Ell.wp_sumSquares_sum (E := False) sA (hlt t))
  choose part h1 h2 using hp
  refine ⟨part, h1, fun total ht => ?_⟩
  have hs := Spec.SumOf.bind h2 ht
  rw [← List.flatMap_assoc] at hs
  have hs := hs.perm ((threads_perm hsc hn hts).flatMap_right A.row)
  have he := Spec.SumOf.error h hs (fun p => val p.2 * val p.2) 1 (fun p _ => by
    rw [pow_one]
    simpa using h.mul p.2 p.2)
  have hsum : ∀ {K' : Type} [AddCommMonoid K'] (f : F → K'), f 0 = 0 →
      (((List.range N).flatMap A.row).map fun p => f p.2).sum
        = ∑ i ∈ Finset.range N, ∑ j ∈ Finset.range N, f (a i j) := by
    intro K' _ f h0
    have : ∀ n, n ≤ N → (((List.range n).flatMap A.row).map fun p => f p.2).sum
        = ∑ i ∈ Finset.range n, ∑ j ∈ Finset.range N, f (a i j) := by
      intro n hnN
      induction n with
      | zero => simp
      | succ n ih =>
        rw [List.range_succ, List.flatMap_append, List.map_append, List.sum_append, ih (by omega),
          Finset.sum_range_succ]
        congr 1
        simp only [List.flatMap_cons, List.flatMap_nil, List.append_nil]
        rw [Spec.sum_entries (sA.good n (by omega)) (fun _ x => f x) (fun _ => h0)]
        exact Finset.sum_congr rfl fun j hj => by
          rw [lA n j (by omega) (Finset.mem_range.1 hj)]
    exact this N (Nat.le_refl N)
  have hlen : ((List.range N).flatMap A.row).length = ∑ i ∈ Finset.range N, A.nnz.get i := by
    have : ∀ n, n ≤ N → ((List.range n).flatMap A.row).length
        = ∑ i ∈ Finset.range n, A.nnz.get i := by
      intro n hnN
      induction n with
      | zero => simp
      | succ n ih =>
        rw [List.range_succ, List.flatMap_append, List.length_append, ih (by omega),
          Finset.sum_range_succ, sA.nnz (by omega : n < N)]
        simp
    exact this N (Nat.le_refl N)
  have e1 := hsum (fun x => val x * val x) (by simp [h.zero])
  have e2 := hsum (fun x => ‖val x‖ * ‖val x‖) (by simp [h.zero])
  by_cases h0 : (List.range N).flatMap A.row = []
  · rw [h0] at e1 e2
    rw [← e1, ← e2]
    simp [he.2 h0]
  · have he1 := he.1
    simp only [norm_mul] at he1
    rw [e1, e2] at he1
    have : 1 + (((List.range N).flatMap A.row).length - 1) = ∑ i ∈ Finset.range N, A.nnz.get i := by
      rw [← hlen]
      have := List.length_pos_iff.2 h0
      omega
    rwa [this] at he1

/-! ## Examples: three-bit arithmetic, `u = 1/4` -/

theorem shBig_drops (x : Short) (h : shBig x = false) : ‖((x.val : Int) : ℝ)‖ ≤ 0 := by
  have : x.val = 0 := by simpa [shBig] using h
  simp [this]

/-- Two threads; the rows of the product have one entry. -/
example : ∃ X x, Ell.multAB (shMat 9) (shMat 5) (shMat 1) shBig [(1, 2), (0, 1), (1, 0)] = .ok X ∧
    X.Represents 3 x ∧ |((x 0 0).val : ℝ) - 45| ≤ 1 / 4 * 45 := by
  obtain ⟨X, x, e, hX, hb⟩ := C83_product Short.rounds (shMat_represents 9) (shMat_represents 5)
    (shMat_represents 1) (big := shBig) shBig_drops (le_refl 0) (sc := [(1, 2), (0, 1), (1, 0)])
    (by unfold IsSched; decide) (by decide)
  refine ⟨X, x, e, hX, ?_⟩
  have := hb 0 0 (by decide) (by decide)
  simpa [Finset.sum_range_succ, shMat, Ell.nnz, show ((0 : Short).val) = 0 from rfl,
    show (9 : ℝ) * 5 = 45 by norm_num, show (1 + 1 / 4 - 1 : ℝ) = 1 / 4 by norm_num] using this

example : ∃ X x, Ell.add (shMat 9) (shMat 5) ⟨3⟩ ⟨-1⟩ shBig [(1, 2), (0, 1), (1, 0)] = .ok X ∧
    X.Represents 3 x ∧ |((x 0 0).val : ℝ) - 22| ≤ 18 := by
  obtain ⟨X, x, e, hX, hb⟩ := C83_add Short.rounds (shMat_represents 9) (shMat_represents 5)
    ⟨3⟩ ⟨-1⟩ (big := shBig) shBig_drops (le_refl 0) (sc := [(1, 2), (0, 1), (1, 0)])
    (by unfold IsSched; decide) (by decide +kernel)
  refine ⟨X, x, e, hX, ?_⟩
  have := hb 0 0 (by decide) (by decide)
  norm_num at this
  exact this

/-- The two traces of `C82_trace_varies`, 8 and 10, are within the bound. -/
example : ∃ part : Nat → Short,
    (∀ t, Ell.trace (shMat 8) ([(1, 2), (0, 1), (1, 0)].filter fun e => decide (e.1 = t))
      = .ok (part t)) ∧
    ∀ total, Spec.SumOf part [0, 1] total → |((total.val : Int) : ℝ) - 8| ≤ 9 / 16 * 8 := by
  obtain ⟨part, h1, h2⟩ := C83_trace Short.rounds (shMat_represents 8)
    (sc := [(1, 2), (0, 1), (1, 0)]) (by unfold IsSched; decide) (ts := [0, 1]) (by decide)
    (by decide)
  refine ⟨part, h1, fun total ht => ?_⟩
  have := h2 total ht
  simp [Finset.sum_range_succ, show ((0 : Short).val) = 0 from rfl] at this
  norm_num at this ⊢
  exact this

end Bml.Props
