import Verif.Dist.Wrappers2
import Verif.Props.Dist2
import Verif.Props.Csr2
import Verif.Props.Dense2

/-!
# Property C43 (2): sums of two matrices, norms, sparsity, clear, copy, conversion

As in `Props/Dist2`: the matrix is `p n × p n`, rank `i p + j` has the tile `(i,j)`.
-/

namespace Bml.Props

open Bml.Dist

set_option linter.unusedSectionVars false

variable {R : Type} [CommRing R] {p n m : Nat} {a b : Spec.Mat R}

/-! ## `bml_sum_AB`, `bml_sum_squares2` -/

/-- **C43**, `bml_sum_AB`: the sum over the whole matrix, on every rank; dense tiles. -/
theorem C43_sum_AB_dense {D E : Nat → Dense R} (hA : Holds (fun A a => A.Represents n a) p n D a)
    (hB : Holds (fun A a => A.Represents n a) p n E b) (α : R) (big : R → Bool) {sc : Nat → Sched}
    (hsc : ∀ r, IsSched (0 * n) (n * n) (sc r)) :
    sumPairs (fun r A B => Dense.sumAB A B α big (sc r)) p D E =
      .ok (Spec.total (p * n) (p * n) fun i j => Spec.keep big (α * a i j * b i j)) :=
  sumPairs_eq (f := fun r A B => Dense.sumAB A B α big (sc r))
    (g := fun x y i j => Spec.keep big (α * x i j * y i j))
    (fun r _ _ _ _ h1 h2 => C21_dense_sum_AB h1 h2 α big (hsc r)) (fun _ _ _ _ => rfl) hA hB

theorem C43_sum_AB_ellpack {D E : Nat → Ell R} (hA : Holds (fun A a => A.Represents n a) p n D a)
    (hB : Holds (fun A a => A.Represents n a) p n E b) (α : R) (big : R → Bool) {sc : Nat → Sched}
    (hsc : ∀ r, IsSched 0 n (sc r)) :
    sumPairs (fun r A B => Ell.sumAB A B α big (sc r)) p D E =
      .ok (Spec.total (p * n) (p * n) fun i j => Spec.keep big (α * a i j * b i j)) :=
  sumPairs_eq (f := fun r A B => Ell.sumAB A B α big (sc r))
    (g := fun x y i j => Spec.keep big (α * x i j * y i j))
    (fun r _ _ _ _ h1 h2 => C21_sum_AB h1 h2 α big (hsc r)) (fun _ _ _ _ => rfl) hA hB

/-- CSR tiles; rows of more than 174762 entries are excluded (C26). -/
theorem C43_sum_AB_csr {D E : Nat → Csr R}
    (hA : Holds (fun A a => A.Represents n a ∧ ∀ i, i < n → (A.data.get i).nnz ≤ 174762) p n D a)
    (hB : Holds (fun A a => A.Represents n a) p n E b) (α : R) (big : R → Bool)
    (junk : Nat → Nat → Hash.Slot) :
    sumPairs (fun r A B => Csr.sumAB A B α big (junk r)) p D E =
      .ok (Spec.total (p * n) (p * n) fun i j => Spec.keep big (α * a i j * b i j)) :=
  sumPairs_eq (f := fun r A B => Csr.sumAB A B α big (junk r))
    (g := fun x y i j => Spec.keep big (α * x i j * y i j))
    (fun r _ _ _ _ h1 h2 => C21_csr_sum_AB h1.1 h2 α big (junk r) h1.2) (fun _ _ _ _ => rfl) hA hB

/-- **C43**, `bml_sum_squares2`, dense tiles. -/
theorem C43_sum_squares2_dense {D E : Nat → Dense R} (hA : Holds (fun A a => A.Represents n a) p n D a)
    (hB : Holds (fun A a => A.Represents n a) p n E b) (α β : R) (big : R → Bool) {sc : Nat → Sched}
    (hsc : ∀ r, IsSched (0 * n) (n * n) (sc r)) :
    sumPairs (fun r A B => Dense.sumSquares2 A B α β big (sc r)) p D E =
      .ok (Spec.total (p * n) (p * n) fun i j => Spec.add big α β a b i j * Spec.add big α β a b i j) :=
  sumPairs_eq (f := fun r A B => Dense.sumSquares2 A B α β big (sc r))
    (g := fun x y i j => Spec.add big α β x y i j * Spec.add big α β x y i j)
    (fun r _ _ _ _ h1 h2 => C21_dense_sum_squares2 h1 h2 α β big (hsc r)) (fun _ _ _ _ => rfl) hA hB

theorem C43_sum_squares2_ellpack {D E : Nat → Ell R} (hA : Holds (fun A a => A.Represents n a) p n D a)
    (hB : Holds (fun A a => A.Represents n a) p n E b) (α β : R) (big : R → Bool) {sc : Nat → Sched}
    (hsc : ∀ r, IsSched 0 n (sc r)) :
    sumPairs (fun r A B => Ell.sumSquares2 A B α β big (sc r)) p D E =
      .ok (Spec.total (p * n) (p * n) fun i j => Spec.add big α β a b i j * Spec.add big α β a b i j) :=
  sumPairs_eq (f := fun r A B => Ell.sumSquares2 A B α β big (sc r))
    (g := fun x y i j => Spec.add big α β x y i j * Spec.add big α β x y i j)
    (fun r _ _ _ _ h1 h2 => C21_sum_squares2 h1 h2 α β big (hsc r)) (fun _ _ _ _ => rfl) hA hB

theorem C43_sum_squares2_csr {D E : Nat → Csr R}
    (hA : Holds (fun A a => A.Represents n a ∧ ∀ i, i < n → (A.data.get i).nnz ≤ 174762) p n D a)
    (hB : Holds (fun A a => A.Represents n a) p n E b) (α β : R) (big : R → Bool)
    (junk : Nat → Nat → Hash.Slot) :
    sumPairs (fun r A B => Csr.sumSquares2 A B α β big (junk r)) p D E =
      .ok (Spec.total (p * n) (p * n) fun i j => Spec.add big α β a b i j * Spec.add big α β a b i j) :=
  sumPairs_eq (f := fun r A B => Csr.sumSquares2 A B α β big (junk r))
    (g := fun x y i j => Spec.add big α β x y i j * Spec.add big α β x y i j)
    (fun r _ _ _ _ h1 h2 => C21_csr_sum_squares2 h1.1 h2 α β big (junk r) h1.2) (fun _ _ _ _ => rfl) hA hB

example : sumPairs (fun _ A B => Dense.sumAB A B 2 (fun x => decide (x > 100)) (seqSched 0 4)) 2
    (denseTiles 2 2 exG) (denseTiles 2 2 exG) = .ok 2712 :=
  (C43_sum_AB_dense (denseTiles_holds 2 2 exG) (denseTiles_holds 2 2 exG) 2 _
    fun _ => isSched_seq 0 4).trans (by decide)

/-! ## Norms -/

section Norms

variable {τ : Type} {c d : Spec.Mat ℝ}

/-- The squares of the norms of the tiles add up to the square of the norm. -/
theorem fnorm2_of {f : Nat → τ → τ → Res ℝ} {Rep Rep' : τ → Spec.Mat ℝ → Prop}
    {g : Spec.Mat ℝ → Spec.Mat ℝ → Spec.Mat ℝ} (hg0 : ∀ x y i j, 0 ≤ g x y i j)
    (hf : ∀ r {A B x y}, Rep A x → Rep' B y → ∃ v, f r A B = .ok v ∧ v ^ 2 = Spec.total n n (g x y))
    (hg : ∀ i j x y, tile n i j (g x y) = g (tile n i j x) (tile n i j y)) {D E : Nat → τ}
    (hA : Holds Rep p n D c) (hB : Holds Rep' p n E d) :
    ∃ v, fnorm2 f p D E = .ok v ∧ 0 ≤ v ∧ v ^ 2 = Spec.total (p * n) (p * n) (g c d) := by
  have h := sumPairs_eq (f := fun r A B => do
      let norm ← f r A B
      pure (norm * norm)) (g := g) (Rep := Rep) (Rep' := Rep') (fun r A B x y h1 h2 => by
        obtain ⟨v, e, hv⟩ := hf r h1 h2
        show (f r A B >>= fun norm => pure (norm * norm)) = _
        rw [e, Res.bind_ok, ← hv, sq]
        rfl) hg hA hB
  have h0 : 0 ≤ Spec.total (p * n) (p * n) (g c d) :=
    Finset.sum_nonneg fun i _ => Finset.sum_nonneg fun j _ => hg0 _ _ _ _
  refine ⟨Real.sqrt (Spec.total (p * n) (p * n) (g c d)), ?_, Real.sqrt_nonneg _, Real.sq_sqrt h0⟩
  unfold fnorm2
  unfold sumPairs at h
  rw [h]
  rfl

/-- **C43**, `bml_fnorm`, real types: the Frobenius norm of the whole matrix, for every local format
whose norm is right. -/
theorem C43_fnorm {f : Nat → τ → Res ℝ} {Rep : τ → Spec.Mat ℝ → Prop}
    (hf : ∀ r {A x}, Rep A x → ∃ v, f r A = .ok v ∧ 0 ≤ v ∧ v ^ 2 = Spec.total n n fun i j => |x i j| ^ 2)
    {D : Nat → τ} (hA : Holds Rep p n D c) :
    ∃ v, fnorm f p D = .ok v ∧ 0 ≤ v ∧ v ^ 2 = Spec.total (p * n) (p * n) fun i j => |c i j| ^ 2 :=
  fnorm2_of (f := fun r A _ => f r A) (g := fun x _ i j => |x i j| ^ 2) (fun _ _ _ _ => sq_nonneg _)
    (fun r _ _ _ _ h _ => by obtain ⟨v, e, -, h⟩ := hf r h; exact ⟨v, e, h⟩) (fun _ _ _ _ => rfl) hA hA

theorem C43_fnorm_dense {D : Nat → Dense ℝ} (hA : Holds (fun A a => A.Represents n a) p n D c)
    {sc : Nat → Sched} (hsc : ∀ r, IsSched (0 * n) (n * n) (sc r)) :
    ∃ v, fnorm (fun r A => Dense.fnorm A (sc r)) p D = .ok v ∧ 0 ≤ v ∧
      v ^ 2 = Spec.total (p * n) (p * n) fun i j => |c i j| ^ 2 :=
  C43_fnorm (f := fun r A => Dense.fnorm A (sc r)) (Rep := fun A a => A.Represents n a)
    (fun r _ _ h => C45_dense_fnorm_partial h (hsc r)) hA

theorem C43_fnorm_ellpack {D : Nat → Ell ℝ} (hA : Holds (fun A a => A.Represents n a) p n D c)
    {sc : Nat → Sched} (hsc : ∀ r, IsSched 0 n (sc r)) :
    ∃ v, fnorm (fun r A => Ell.fnorm A (sc r)) p D = .ok v ∧ 0 ≤ v ∧
      v ^ 2 = Spec.total (p * n) (p * n) fun i j => |c i j| ^ 2 :=
  C43_fnorm (f := fun r A => Ell.fnorm A (sc r)) (Rep := fun A a => A.Represents n a)
    (fun r _ _ h => C45_fnorm_partial h (hsc r)) hA

theorem C43_fnorm_csr {D : Nat → Csr ℝ} (hA : Holds (fun A a => A.Represents n a) p n D c)
    {sc : Nat → Sched} (hsc : ∀ r, IsSched 0 n (sc r)) :
    ∃ v, fnorm (fun r A => Csr.fnorm A (sc r)) p D = .ok v ∧ 0 ≤ v ∧
      v ^ 2 = Spec.total (p * n) (p * n) fun i j => |c i j| ^ 2 :=
  C43_fnorm (f := fun r A => Csr.fnorm A (sc r)) (Rep := fun A a => A.Represents n a)
    (fun r _ _ h => C45_csr_fnorm_partial h (hsc r)) hA

/-- A square root of a sum of squares. -/
theorem sq_sqrtReal {N : Nat} {s : Res ℝ} {g : Spec.Mat ℝ} (h : s = .ok (Spec.total N N fun i j => g i j * g i j)) :
    ∃ v, sqrtReal s = .ok v ∧ v ^ 2 = Spec.total N N fun i j => g i j * g i j :=
  ⟨_, by rw [h]; rfl, Real.sq_sqrt
    (Finset.sum_nonneg fun i _ => Finset.sum_nonneg fun j _ => mul_self_nonneg _)⟩

/-- **C43**, `bml_fnorm2`, dense tiles: the norm of the difference, if the threads of a rank do not
interleave inside an iteration (C37). -/
theorem C43_fnorm2_dense_partial {D E : Nat → Dense ℝ} (hA : Holds (fun A a => A.Represents n a) p n D c)
    (hB : Holds (fun A a => A.Represents n a) p n E d) {l : Nat → List Nat}
    (hl : ∀ r, (l r).Perm (List.range (n * n))) (t : Nat → ℝ) :
    ∃ v, fnorm2 (fun r A B => sqrtReal (Dense.fnorm2Sq A B ((l r).flatMap fun i => [.assign i, .accum i]) (t r)))
        p D E = .ok v ∧ 0 ≤ v ∧
      v ^ 2 = Spec.total (p * n) (p * n) fun i j => (c i j - d i j) * (c i j - d i j) :=
  fnorm2_of (g := fun x y i j => (x i j - y i j) * (x i j - y i j)) (fun _ _ _ _ => mul_self_nonneg _)
    (fun r _ _ _ _ h1 h2 => sq_sqrtReal (C37_dense_fnorm2_partial h1 h2 (hl r) (t r))) (fun _ _ _ _ => rfl) hA hB

/-- **C43**, `bml_fnorm2`, ELLPACK tiles: under the conditions of C37 on every rank. -/
theorem C43_fnorm2_ellpack_partial {D E : Nat → Ell ℝ}
    (hA : Holds (fun A a => A.Represents n a ∧ A.M = m ∧ (∀ i, i < n → A.nnz.get i ≠ 0) ∧
      ∀ i j, i < n → A.Stored i j → a i j ≠ 0) p n D c)
    (hB : Holds (fun A a => A.Represents n a ∧ A.M = m ∧ ∀ i, i < n → A.nnz.get i ≠ 0) p n E d)
    {sc : Nat → Sched} (hsc : ∀ r, IsSched 0 n (sc r)) (junk : Nat → Nat → ℝ) :
    ∃ v, fnorm2 (fun r A B => sqrtReal (Ell.fnorm2Sq A B (sc r) (junk r))) p D E = .ok v ∧ 0 ≤ v ∧
      v ^ 2 = Spec.total (p * n) (p * n) fun i j => (c i j - d i j) * (c i j - d i j) :=
  fnorm2_of (g := fun x y i j => (x i j - y i j) * (x i j - y i j)) (fun _ _ _ _ => mul_self_nonneg _)
    (fun r _ _ _ _ h1 h2 => sq_sqrtReal (C37_fnorm2_partial h1.1 h2.1 (h1.2.1.trans h2.2.1.symm) (hsc r)
      (fun i hi => iff_of_false (h1.2.2.1 i hi) (h2.2.2 i hi)) h1.2.2.2 (junk r))) (fun _ _ _ _ => rfl) hA hB

/-- **C43 fails** for `bml_fnorm2` on CSR tiles: not implemented, the program ends. -/
theorem C43_fnorm2_csr (hp : 0 < p) (D E : Nat → Csr ℝ) :
    fnorm2 (fun _ A B => sqrtReal (Csr.fnorm2 A B)) p D E = .error := by
  have h : ∀ P : Nat, 0 < P → (sumReduce P fun r => do
      let norm ← sqrtReal (Csr.fnorm2 (D r) (E r))
      pure (norm * norm)) = .error := by
    intro P
    induction P with
    | zero => exact fun h => absurd h (by omega)
    | succ P ih =>
      intro _
      by_cases hP : 0 < P
      · unfold sumReduce at ih ⊢
        rw [loop_succ, ih hP]
        rfl
      · obtain rfl : P = 0 := by omega
        rfl
  unfold fnorm2
  rw [h _ (Nat.mul_pos hp hp)]
  rfl

/-- The norm of a `4 × 4` matrix of ones, spread over four ranks. -/
example : ∃ v, fnorm (fun _ A => Dense.fnorm A (seqSched 0 4)) 2 (denseTiles 2 2 fun _ _ => (1 : ℝ)) = .ok v ∧
    v ^ 2 = 16 := by
  obtain ⟨v, e, -, h⟩ := C43_fnorm_dense (n := 2) (p := 2) (denseTiles_holds 2 2 fun _ _ => (1 : ℝ))
    (sc := fun _ => seqSched 0 4) fun _ => isSched_seq 0 4
  refine ⟨v, e, h.trans ?_⟩
  simp [Spec.total]
  norm_num

end Norms

/-! ## Sparsity -/

section Sparsity

variable {τ : Type}

omit [CommRing R] in
theorem count_tiles (big : R → Bool) (a : Spec.Mat R) :
    ∑ i ∈ Finset.range (p * n), Spec.rowCount big (p * n) a i =
      ∑ i ∈ Finset.range p, ∑ j ∈ Finset.range p,
        ∑ r ∈ Finset.range n, Spec.rowCount big n (tile n i j a) r := by
  have h : ∀ (N : Nat) (b : Spec.Mat R), ∑ i ∈ Finset.range N, Spec.rowCount big N b i =
      Spec.total N N fun i j => if big (b i j) = true then 1 else 0 := by
    intro N b
    unfold Spec.total
    refine Finset.sum_congr rfl fun i _ => ?_
    unfold Spec.rowCount
    rw [Finset.card_filter]
  rw [h, total_tiles]
  exact Finset.sum_congr rfl fun i _ => Finset.sum_congr rfl fun j _ => (h _ _).symm

/-- **C43**, `bml_get_sparsity`, partial: one minus the fraction of elements above the threshold, for
every local format whose sparsity is right.  Missing: `p n > 46340` (`C43_sparsity_overflow`). -/
theorem C43_sparsity_partial {f : Nat → τ → Res ℚ} {Rep : τ → Spec.Mat R → Prop} {big : R → Bool}
    (hf : ∀ r {A x}, Rep A x → f r A = .ok (1 - ((∑ i ∈ Finset.range n, Spec.rowCount big n x i : Nat) : ℚ) /
      ((n * n : Nat) : ℚ)))
    {D : Nat → τ} (hA : Holds Rep p n D a) (hp : 0 < p) (hn : 0 < n) (hN : p * n ≤ 46340) :
    sparsity f p (p * n) D = .ok (1 -
      ((∑ i ∈ Finset.range (p * n), Spec.rowCount big (p * n) a i : Nat) : ℚ) / ((p * n * (p * n) : Nat) : ℚ)) := by
  have h1 : p * n * (p * n) ≤ 46340 * 46340 := Nat.mul_le_mul hN hN
  have h2 : n * n ≤ p * n * (p * n) := Nat.mul_le_mul (Nat.le_mul_of_pos_left n hp) (Nat.le_mul_of_pos_left n hp)
  have hn0 : ((n * n : Nat) : ℚ) ≠ 0 := Nat.cast_ne_zero.2 (Nat.mul_ne_zero hn.ne' hn.ne')
  have hp0 : ((p * n * (p * n) : Nat) : ℚ) ≠ 0 := by
    have := Nat.mul_pos hp hn
    exact Nat.cast_ne_zero.2 (Nat.mul_ne_zero this.ne' this.ne')
  unfold sparsity
  rw [Nat.mul_div_cancel_left n hp, sumReduce_eq (g := fun r => ((n * n : Nat) : ℚ) -
    ((∑ i ∈ Finset.range n, Spec.rowCount big n (tile n (prow p r) (pcol p r) a) i : Nat) : ℚ)), Res.bind_ok,
    if_pos (by omega), sum_ranks, count_tiles]
  · rw [Res.pure_eq]
    congr 1
    have e : ∑ i ∈ Finset.range p, ∑ j ∈ Finset.range p, (((n * n : Nat) : ℚ) -
        ((∑ k ∈ Finset.range n, Spec.rowCount big n (tile n (prow p (rankOf p i j)) (pcol p (rankOf p i j)) a) k : Nat) : ℚ)) =
        ((p * n * (p * n) : Nat) : ℚ) - ((∑ i ∈ Finset.range p, ∑ j ∈ Finset.range p,
          ∑ r ∈ Finset.range n, Spec.rowCount big n (tile n i j a) r : Nat) : ℚ) := by
      rw [Finset.sum_congr rfl fun i hi => Finset.sum_congr rfl fun j hj => by
        rw [prow_rankOf (Finset.mem_range.1 hj), pcol_rankOf (Finset.mem_range.1 hj)]]
      simp only [Finset.sum_sub_distrib, Finset.sum_const, Finset.card_range, nsmul_eq_mul]
      push_cast
      ring
    rw [e, sub_div, div_self hp0]
  · refine ranks_of fun i j hi hj => ?_
    rw [prow_rankOf hj, pcol_rankOf hj, hf _ (hA i j hi hj), Res.bind_ok, if_pos (by omega), Res.pure_eq]
    congr 1
    rw [sub_mul, one_mul, div_mul_cancel₀ _ hn0]

/-- **C43 fails** for `bml_get_sparsity` of matrices with more than 46340 rows, also where every tile is
small: `A->N * A->N` overflows. -/
theorem C43_sparsity_overflow {f : Nat → τ → Res ℚ} {D : Nat → τ} (hf : ∀ r, r < p * p → ∃ x, f r (D r) = .ok x)
    {N : Nat} (hN : 46341 ≤ N) : sparsity f p N D = .ub := by
  have hNN : ¬ N * N ≤ 2147483647 := by
    have : 46341 * 46341 ≤ N * N := Nat.mul_le_mul hN hN
    omega
  unfold sparsity
  by_cases h : N / p * (N / p) ≤ 2147483647
  · have : ∀ r, ∃ y, r < p * p → (do
        let sp ← f r (D r)
        if N / p * (N / p) ≤ 2147483647 then pure (sp * ((N / p * (N / p) : Nat) : ℚ)) else .ub : Res ℚ) = .ok y := by
      intro r
      by_cases hr : r < p * p
      · obtain ⟨x, e⟩ := hf r hr
        exact ⟨x * ((N / p * (N / p) : Nat) : ℚ), fun _ => by rw [e, Res.bind_ok, if_pos h]; rfl⟩
      · exact ⟨0, fun h => absurd h hr⟩
    choose y hy using this
    rw [sumReduce_eq hy, Res.bind_ok, if_neg hNN]
  · have key : ∀ P, P ≤ p * p → 0 < P → (sumReduce P fun r => (do
        let sp ← f r (D r)
        if N / p * (N / p) ≤ 2147483647 then pure (sp * ((N / p * (N / p) : Nat) : ℚ)) else .ub : Res ℚ)) = .ub := by
      intro P
      induction P with
      | zero => exact fun _ h => absurd h (by omega)
      | succ P ih =>
        intro hP _
        by_cases h0 : 0 < P
        · unfold sumReduce at ih ⊢
          rw [loop_succ, ih (by omega) h0]
          rfl
        · obtain rfl : P = 0 := by omega
          obtain ⟨x, e⟩ := hf 0 hP
          unfold sumReduce
          rw [loop_succ, loop_zero, Res.bind_ok]
          beta_reduce
          rw [e, Res.bind_ok, if_neg h]
          rfl
    by_cases hp : p = 0
    · subst hp
      rw [Nat.div_zero] at h
      omega
    · have := Nat.pos_of_ne_zero hp
      rw [key _ le_rfl (Nat.mul_pos this this)]
      rfl

theorem C43_sparsity_dense_partial {D : Nat → Dense R} (hA : Holds (fun A a => A.Represents n a) p n D a)
    (hp : 0 < p) (hn : 0 < n) (hN : p * n ≤ 46340) (big : R → Bool) :
    sparsity (fun _ A => Dense.sparsity A big) p (p * n) D = .ok (1 -
      ((∑ i ∈ Finset.range (p * n), Spec.rowCount big (p * n) a i : Nat) : ℚ) / ((p * n * (p * n) : Nat) : ℚ)) :=
  C43_sparsity_partial (fun _ _ _ h => C33_dense_sparsity_partial h
    (le_trans (Nat.le_mul_of_pos_left n hp) hN) big) hA hp hn hN

theorem C43_sparsity_csr_partial {D : Nat → Csr R} (hA : Holds (fun A a => A.Represents n a) p n D a)
    (hp : 0 < p) (hn : 0 < n) (hN : p * n ≤ 46340) (big : R → Bool) (h0 : big 0 = false) :
    sparsity (fun _ A => (Csr.sparsity A big : Res ℚ)) p (p * n) D = .ok (1 -
      ((∑ i ∈ Finset.range (p * n), Spec.rowCount big (p * n) a i : Nat) : ℚ) / ((p * n * (p * n) : Nat) : ℚ)) :=
  C43_sparsity_partial (fun _ _ _ h => C33_csr_sparsity_partial h
    (le_trans (Nat.le_mul_of_pos_left n hp) hN) big h0) hA hp hn hN

theorem C43_sparsity_ellpack_partial {D : Nat → Ell R} (hA : Holds (fun A a => A.Represents n a) p n D a)
    (hp : 0 < p) (hn : 0 < n) (hN : p * n ≤ 46340) (big : R → Bool) (h0 : big 0 = false) :
    sparsity (fun _ A => Ell.sparsity A big) p (p * n) D = .ok (1 -
      ((∑ i ∈ Finset.range (p * n), Spec.rowCount big (p * n) a i : Nat) : ℚ) / ((p * n * (p * n) : Nat) : ℚ)) :=
  C43_sparsity_partial (fun _ _ x h => by
    rw [C33_sparsity_partial h (le_trans (Nat.le_mul_of_pos_left n hp) hN) big h0]
    have : ∑ i ∈ Finset.range n, Spec.rowCount big n x i =
        ((Finset.range n ×ˢ Finset.range n).filter (fun p => big (x p.1 p.2) = true)).card := by
      unfold Spec.rowCount
      simp only [Finset.card_filter]
      rw [Finset.sum_product]
    rw [this, Nat.cast_mul]) hA hp hn hN

example : sparsity (fun _ A => Dense.sparsity A fun x => decide (x > 5)) 2 4 (denseTiles 2 2 exG) =
    .ok (1 - ((∑ i ∈ Finset.range 4, Spec.rowCount (fun x => decide (x > 5)) 4 exG i : Nat) : ℚ) / ((16 : Nat) : ℚ)) :=
  C43_sparsity_dense_partial (denseTiles_holds 2 2 exG) (by decide) (by decide) (by decide) _

/-- 300 × 300 ranks with `155 × 155` tiles. -/
example : sparsity (fun _ A => Dense.sparsity A fun x => decide (x > 5)) 300 46500
    (denseTiles 300 155 exG) = .ub :=
  C43_sparsity_overflow (fun r _ => ⟨_, C33_dense_sparsity_partial (Dense.ofMat_rep _ _) (by decide) _⟩)
    (by decide)

end Sparsity

/-! ## Clear and copy -/

/-- **C43**, `bml_clear`: every element is zero. -/
theorem C43_clear_dense (hp : 0 < p) {D : Nat → Dense R} (hA : Holds (fun A a => A.Represents n a) p n D a) :
    ∃ D', Calls p (fun r => clear (fun _ A => A.clear) r (D r)) D' ∧
      Holds (fun A a => A.Represents n a) p n D' (Spec.zero : Spec.Mat R) :=
  calls_of hp fun i j hi hj => by
    obtain ⟨A', e, -, h, -⟩ := C48_dense_clear (hA i j hi hj)
    exact ⟨A', e, h⟩

theorem C43_clear_ellpack (hp : 0 < p) {D : Nat → Ell R}
    (hA : Holds (fun A a => A.Represents n a ∧ A.M = m) p n D a) :
    ∃ D', Calls p (fun r => clear (fun _ A => A.clear) r (D r)) D' ∧
      Holds (fun A a => A.Represents n a ∧ A.M = m) p n D' (Spec.zero : Spec.Mat R) :=
  calls_of hp fun i j hi hj => by
    obtain ⟨A', e, h1, h2, -⟩ := C48_clear (hA i j hi hj).1
    exact ⟨A', e, h2, h1.trans (hA i j hi hj).2⟩

theorem C43_clear_csr (hp : 0 < p) {D : Nat → Csr R}
    (hA : Holds (fun A a => A.Represents n a ∧ A.M = m) p n D a) {sc : Nat → Sched}
    (hsc : ∀ r, IsSched 0 n (sc r)) :
    ∃ D', Calls p (fun r => clear (fun r A => A.clear (sc r)) r (D r)) D' ∧
      Holds (fun A a => A.Represents n a ∧ A.M = m) p n D' (Spec.zero : Spec.Mat R) :=
  calls_of hp fun i j hi hj => by
    obtain ⟨A', e, h1, h2, -⟩ := C48_csr_clear (hA i j hi hj).1 (hsc _)
    exact ⟨A', e, h2, h1.trans (hA i j hi hj).2⟩

/-- **C43**, `bml_copy(A,B)`: `B` holds the matrix of `A`, whatever it held. -/
theorem C43_copy_dense (hp : 0 < p) {D E : Nat → Dense R} (hA : Holds (fun A a => A.Represents n a) p n D a)
    (hB : Holds (fun A a => A.Represents n a) p n E b) :
    ∃ E', Calls p (fun r => copy (fun _ A B => A.bmlCopy B) r (D r) (E r)) E' ∧
      Holds (fun A a => A.Represents n a) p n E' a :=
  calls_of hp fun i j hi hj => (C07_dense_copy (hA i j hi hj) (hB i j hi hj)).1 rfl

/-- ELLPACK tiles of the same width; other widths: C07. -/
theorem C43_copy_ellpack_partial (hp : 0 < p) {D E : Nat → Ell R} (hm : m ≠ 0)
    (hA : Holds (fun A a => A.Represents n a ∧ A.M = m) p n D a)
    (hB : Holds (fun A a => A.Represents n a ∧ A.M = m) p n E b) {sc : Nat → Sched}
    (hsc : ∀ r, IsSched 0 n (sc r)) :
    ∃ E', Calls p (fun r => copy (fun r A B => A.bmlCopy B (sc r)) r (D r) (E r)) E' ∧
      Holds (fun A a => A.Represents n a ∧ A.M = m) p n E' a :=
  calls_of hp fun i j hi hj => by
    obtain ⟨h1, h2⟩ := hA i j hi hj
    obtain ⟨h3, h4⟩ := hB i j hi hj
    obtain ⟨B', e, h5, h6⟩ := C07_copy_partial h1 h3.wf h3.dim (h4.trans h2.symm) (by rw [h2]; exact hm)
      (hsc (rankOf p i j))
    exact ⟨B', e, h6, h5.trans h2⟩

/-- CSR tiles: the rows of `B` must have the space; otherwise the program may end (C07). -/
theorem C43_copy_csr_partial (hp : 0 < p) {D E : Nat → Csr R}
    (hA : Holds (fun A a => A.Represents n a) p n D a)
    (hB : Holds (fun A a => A.Represents n a ∧ ∀ i, i < n → n ≤ (A.data.get i).alloc) p n E b)
    {sc : Nat → Sched} (hsc : ∀ r, IsSched 0 n (sc r)) :
    ∃ E', Calls p (fun r => copy (fun r A B => A.copyInto B (sc r)) r (D r) (E r)) E' ∧
      Holds (fun A a => A.Represents n a) p n E' a :=
  calls_of hp fun i j hi hj => by
    obtain ⟨h3, h4⟩ := hB i j hi hj
    refine (C07_csr_copy_partial (hA i j hi hj) h3 (hsc (rankOf p i j))).2 fun k hk => le_trans ?_ (h4 k hk)
    have hR := Csr.represents_iff.1 (hA i j hi hj)
    have := SRow.Good.length_le (hR.holds k hk).2.1
    rwa [CsrRow.list_length] at this

example : ∃ D', Calls 2 (fun r => clear (fun _ A => A.clear) r (denseTiles 2 2 exG r)) D' ∧
    Holds (fun A a => A.Represents 2 a) 2 2 D' (Spec.zero : Spec.Mat Int) :=
  C43_clear_dense (by decide) (denseTiles_holds 2 2 exG)

example : ∃ E', Calls 2 (fun r => copy (fun _ A B => A.bmlCopy B) r (denseTiles 2 2 exG r)
      (denseTiles 2 2 (fun _ _ => 7) r)) E' ∧ Holds (fun A a => A.Represents 2 a) 2 2 E' exG :=
  C43_copy_dense (by decide) (denseTiles_holds 2 2 exG) (denseTiles_holds 2 2 _)

/-! ## Conversion -/

section Convert

variable {τ : Type}

/-- **C43**, `bml_convert` to dense tiles, for every local format. -/
theorem C43_convert_to_dense (hp : 0 < p) (hn : 0 < n) {M : Nat} (hM : 0 < M)
    {get : τ → Nat → Nat → Res R} {getM : τ → Res Nat} {Rep : τ → Spec.Mat R → Prop}
    (hget : ∀ {A x}, Rep A x → (∀ i j, i < n → j < n → get A i j = .ok (x i j)) ∧ ∃ w, getM A = .ok w)
    {D : Nat → τ} (hA : Holds Rep p n D a) :
    ∃ D', Calls p (fun r => convert (fun N _ => .ok (Dense.zeroMatrix N)) getM
        (fun _ A _ => Dense.convertFrom (get A) n) p (p * n) M r (D r)) D' ∧
      Holds (fun A a => A.Represents n a) p n D' a :=
  calls_of hp fun i j hi hj => by
    obtain ⟨h, w, e⟩ := hget (hA i j hi hj)
    obtain ⟨B, e', h'⟩ := C29_convert_dense h
    refine ⟨B, ?_, h'⟩
    unfold convert
    rw [if_pos ⟨Nat.mul_pos hp hn, hM, by rw [Nat.mul_div_cancel_left n hp, Nat.mul_comm]⟩, Res.bind_ok, e,
      Res.bind_ok]
    exact e'

/-- **C43**, `bml_convert` to ELLPACK tiles, partial: right if the *old* local matrix is at least `n` wide
(`w = n` for dense tiles) and `M ≥ p`. -/
theorem C43_convert_to_ellpack_partial (hp : 0 < p) (hn : 0 < n) {M : Nat} (hM : p ≤ M)
    {get : τ → Nat → Nat → Res R} {getM : τ → Res Nat} {Rep : τ → Spec.Mat R → Prop}
    (hget : ∀ {A x}, Rep A x → (∀ i j, i < n → j < n → get A i j = .ok (x i j)) ∧ ∃ w, getM A = .ok w ∧ n ≤ w)
    {D : Nat → τ} (hA : Holds Rep p n D a) :
    ∃ D', Calls p (fun r => convert Ell.newZero getM
        (fun _ A w => Ell.convertFrom (get A) n w) p (p * n) M r (D r)) D' ∧
      Holds (fun A a => A.Represents n a) p n D' a :=
  calls_of hp fun i j hi hj => by
    obtain ⟨h, w, e, hw⟩ := hget (hA i j hi hj)
    obtain ⟨B, e', -, h'⟩ := C29_convert_partial (M := w) (by omega) hw h
    obtain ⟨Z, e0, -⟩ := C32_zero (R := R) (N := n) (M := M / p) (Nat.div_pos hM hp)
    refine ⟨B, ?_, h'⟩
    unfold convert
    rw [if_pos ⟨Nat.mul_pos hp hn, lt_of_lt_of_le hp hM, by rw [Nat.mul_div_cancel_left n hp, Nat.mul_comm]⟩,
      Nat.mul_div_cancel_left n hp, e0, Res.bind_ok, e, Res.bind_ok]
    exact e'

/-- **C43 fails** for `bml_convert` to ELLPACK tiles from tiles that say they are less than `n` wide: the
function never returns, *whatever `M` the caller asks for*. -/
theorem C43_convert_width_ignored {get : τ → Nat → Nat → Res R} {getM : τ → Res Nat} {A : τ} {w : Nat}
    (hw : getM A = .ok w) (hn : w < n) (N M r : Nat) (B : Ell R) :
    convert Ell.newZero getM (fun _ A w => Ell.convertFrom (get A) n w) p N M r A ≠ .ok B := by
  unfold convert
  by_cases h : N > 0 ∧ M > 0 ∧ N / p * p = N
  · rw [if_pos h]
    cases (Ell.newZero (N / p) (M / p) : Res (Ell R)) with
    | ok z =>
      rw [Res.bind_ok, hw, Res.bind_ok]
      exact C29_narrow_fails hn _ _
    | error => exact fun h => nomatch h
    | ub => exact fun h => nomatch h
  · rw [if_neg h]
    exact fun h => nomatch h

/-- **C43**, `bml_convert` to CSR tiles. -/
theorem C43_convert_to_csr (hp : 0 < p) (hn : 0 < n) {M : Nat} (hM : 0 < M)
    {getRow : τ → Nat → Res (Arr R)} {getM : τ → Res Nat} {Rep : τ → Spec.Mat R → Prop}
    (hget : ∀ {A x}, Rep A x → (∀ i, i < n → ∃ row, getRow A i = .ok row ∧ row.size = n ∧
      ∀ j, j < n → row.get j = x i j) ∧ ∃ w, getM A = .ok w) (big0 : R → Bool)
    (h0 : ∀ x, big0 x = false → x = 0) (junk : Nat → Nat → Nat)
    {D : Nat → τ} (hA : Holds Rep p n D a) :
    ∃ D', Calls p (fun r => convert (fun N M => .ok (Csr.newZero N M)) getM
        (fun r A w => Csr.convertFrom (getRow A) n w big0 (junk r)) p (p * n) M r (D r)) D' ∧
      Holds (fun A a => A.Represents n a) p n D' a :=
  calls_of hp fun i j hi hj => by
    obtain ⟨h, w, e⟩ := hget (hA i j hi hj)
    obtain ⟨B, e', -, h'⟩ := C29_convert_csr (M := w) h big0 h0 (junk (rankOf p i j))
    refine ⟨B, ?_, h'⟩
    unfold convert
    rw [if_pos ⟨Nat.mul_pos hp hn, hM, by rw [Nat.mul_div_cancel_left n hp, Nat.mul_comm]⟩, Res.bind_ok, e,
      Res.bind_ok]
    exact e'

/-- **C43**: dense to ELLPACK; the width of a dense tile is `n`. -/
theorem C43_convert_dense_to_ellpack (hp : 0 < p) (hn : 0 < n) {M : Nat} (hM : p ≤ M) {D : Nat → Dense R}
    (hA : Holds (fun A a => A.Represents n a) p n D a) :
    ∃ D', Calls p (fun r => convert Ell.newZero (fun A : Dense R => .ok A.N)
        (fun _ A w => Ell.convertFrom (fun i j => A.getElement i j) n w) p (p * n) M r (D r)) D' ∧
      Holds (fun A a => A.Represents n a) p n D' a :=
  C43_convert_to_ellpack_partial (get := fun (A : Dense R) i j => A.getElement i j)
    (Rep := fun A a => A.Represents n a) hp hn hM
    (fun h => ⟨fun i j hi hj => h.get i j hi hj, _, rfl, h.dim.ge⟩) hA

/-- **C43**: ELLPACK to dense. -/
theorem C43_convert_ellpack_to_dense (hp : 0 < p) (hn : 0 < n) {M : Nat} (hM : 0 < M) {D : Nat → Ell R}
    (hA : Holds (fun A a => A.Represents n a) p n D a) :
    ∃ D', Calls p (fun r => convert (fun N _ => .ok (Dense.zeroMatrix N)) (fun A : Ell R => .ok A.M)
        (fun _ A _ => Dense.convertFrom (fun i j => A.getElement i j) n) p (p * n) M r (D r)) D' ∧
      Holds (fun A a => A.Represents n a) p n D' a :=
  C43_convert_to_dense (get := fun (A : Ell R) i j => A.getElement i j)
    (Rep := fun A a => A.Represents n a) hp hn hM
    (fun h => ⟨fun i j hi hj => h.get i j hi hj, _, rfl⟩) hA

/-- A `48 × 48` CSR matrix on 4 ranks, made with `M = 20`: the rows of the local `24 × 24` matrices have
space for 10 entries, so it cannot be converted to ELLPACK, whatever `M` is asked for. -/
theorem C43_convert_csr_witness (M r : Nat) (B : Ell Int) :
    convert Ell.newZero Csr.getM (fun _ A w => Ell.convertFrom (fun i j => Csr.getElement A i j) 24 w)
      2 48 M r (Csr.newZero 24 10 : Csr Int) ≠ .ok B :=
  C43_convert_width_ignored (w := 10) (by decide +kernel) (by decide) 48 M r B

example : ∃ D', Calls 2 (fun r => convert Ell.newZero (fun A : Dense Int => .ok A.N)
        (fun _ A w => Ell.convertFrom (fun i j => A.getElement i j) 2 w) 2 (2 * 2) 2 r (denseTiles 2 2 exG r)) D' ∧
      Holds (fun A a => A.Represents 2 a) 2 2 D' exG :=
  C43_convert_dense_to_ellpack (by decide) (by decide) (by decide) (denseTiles_holds 2 2 exG)

end Convert

end Bml.Props
