import Verif.Round.Dense
import Verif.Props.RoundProgram

/-!
# Properties C82 and C83 for dense matrices

As for ELLPACK, no law of arithmetic is assumed in C82; C83 assumes the standard model of
floating-point arithmetic.  Dense programs may contain every call, and sums over the matrix are the
only questions whose answers depend on the schedule.  The matrix product is the library's own
(`bml_gemm.c`); a product from an external BLAS may add in another order.
-/

set_option linter.unusedSectionVars false

namespace Bml.Spec

open History

section
variable {F : Type} [Zero F] [One F] [Add F] [Mul F] [DecidableEq F]

/-- The elements that a call stores in a dense matrix, operation by operation. -/
def denseStored (N : Nat) (s : Nat → Mat F) : Cmd F → Mat F
  | .zero _ => fun _ _ => 0
  | .identity _ => fun i j => if i = j then 1 else 0
  | .set i j x v => fun i' j' => if i' = i ∧ j' = j then x else s v i' j'
  | .setRow _ i row v => fun i' j => if i' = i then row.get j else s v i' j
  | .setDiagonal _ d v => fun i j => if i = j then d.get i else s v i j
  | .copyNew v _ | .copy v _ => s v
  | .scaleInplace c v | .scale c v _ => fun i j => c * s v i j
  | .add _ α β w v => fun i j => α * s v i j + β * s w i j
  | .addIdentity _ β v => fun i j => if i = j then s v i j + β else s v i j
  | .scaleAddIdentity _ α β v => fun i j => if i = j then α * s v i j + β else α * s v i j
  | .threshold t v => fun i j => if t (s v i j) then s v i j else 0
  | .multiply _ α β v w u => fun i j => gemmCell N α β (s v i) (fun k => s w k j) (s u i j)
  | .square _ v w => fun i j => gemmCell N 1 0 (s v i) (fun k => s v k j) (s w i j)
  | .transpose v | .transposeNew v _ => fun i j => s v j i

/-- The answers that are read off a matrix. -/
def denseShown (N : Nat) (s : Nat → Mat F) : Ask → List F
  | .element i j v => [s v i j]
  | .row i v => (List.range N).map fun j => s v i j
  | .diagonal v => (List.range N).map fun i => s v i i
  | .dense .rowMajor v => (List.range (N * N)).map fun k => s v (k / N) (k % N)
  | .dense .colMajor v => (List.range (N * N)).map fun k => s v (k % N) (k / N)
  | .trace _ | .sumSquares _ => []

/-- The answers to the questions of a program. -/
def denseShownAll (N : Nat) : List (Stmt F) → (Nat → Mat F) → List (List F)
  | [], _ => []
  | .call c :: cs, s => denseShownAll N cs (upd s c.target (denseStored N s c))
  | .ask q :: cs, s => denseShown N s q :: denseShownAll N cs s

/-- The statement is not a question for a sum over the matrix. -/
def NoSum : Stmt F → Prop
  | .ask (.trace _) | .ask (.sumSquares _) => False
  | _ => True

end

variable {F : Type} {K : Type} [NormedField K]

/-- The error of `α (x·y) + β z` computed with inner products of length `N`, if `x k`, `y k` and `z`
are known up to `e k`, `f k` and `g`. -/
def errGemm (u : ℝ) (N : Nat) (α β : K) (x : Nat → K) (e : Nat → ℝ) (y : Nat → K) (f : Nat → ℝ)
    (z : K) (g : ℝ) : ℝ :=
  ((1 + u) ^ (N + 2) - 1)
      * (‖β‖ * (‖z‖ + g) + ‖α‖ * ∑ k ∈ Finset.range N, (‖x k‖ + e k) * (‖y k‖ + f k))
    + (‖β‖ * g + ‖α‖ * ∑ k ∈ Finset.range N, (‖x k‖ * f k + e k * ‖y k‖ + e k * f k))

/-- The error of the result of a call on dense matrices, if the elements of variable `v` are known up
to `e v`.  Only `bml_threshold` drops elements. -/
def denseBound (val : F → K) (u : ℝ) (τ : (F → Bool) → ℝ) (N : Nat) (x : Nat → Mat K)
    (e : Nat → Mat ℝ) : Cmd F → Mat ℝ
  | .zero _ | .identity _ => fun _ _ => 0
  | .set i j _ v => fun i' j' => if i' = i ∧ j' = j then 0 else e v i' j'
  | .setRow _ i _ v => fun i' j => if i' = i then 0 else e v i' j
  | .setDiagonal _ _ v => fun i j => if i = j then 0 else e v i j
  | .copyNew v _ | .copy v _ => e v
  | .threshold t v => fun i j => e v i j + τ t
  | .scaleInplace c v | .scale c v _ => fun i j => errScale u (val c) (x v i j) (e v i j)
  | .add _ α β w v => fun i j =>
    errSum u 0 (val α) (x v i j) (e v i j) (val β) (x w i j) (e w i j)
  | .addIdentity _ β v => fun i j =>
    if i = j then errShift u 0 (x v i j) (e v i j) (val β) else e v i j
  | .scaleAddIdentity _ α β v => fun i j =>
    let e' := errScale u (val α) (x v i j) (e v i j)
    if i = j then errShift u 0 (val α * x v i j) e' (val β) else e'
  | .multiply _ α β v w c => fun i j => errGemm u N (val α) (val β) (x v i) (e v i)
      (fun k => x w k j) (fun k => e w k j) (x c i j) (e c i j)
  | .square _ v _ => fun i j => errGemm u N (1 : K) 0 (x v i) (e v i)
      (fun k => x v k j) (fun k => e v k j) 0 0
  | .transpose v | .transposeNew v _ => fun i j => e v j i

/-- The values of the variables after a program, in exact arithmetic, and the errors of the dense
computation. -/
def denseEstimate (val : F → K) (u : ℝ) (τ : (F → Bool) → ℝ) (N : Nat) :
    List (Cmd F) → (Nat → Mat K) × (Nat → Mat ℝ) → (Nat → Mat K) × (Nat → Mat ℝ)
  | [], s => s
  | c :: cs, s => denseEstimate val u τ N cs
      (upd s.1 c.target (exact val N s.1 c), upd s.2 c.target (denseBound val u τ N s.1 s.2 c))

/-- The test of `bml_threshold` drops only numbers up to `τ`. -/
def DenseDrops (val : F → K) (τ : (F → Bool) → ℝ) : Cmd F → Prop
  | .threshold t _ => 0 ≤ τ t ∧ ∀ x, t x = false → ‖val x‖ ≤ τ t
  | _ => True

end Bml.Spec

namespace Bml.Props

open History _root_.Bml.Spec

section Exact

variable {F : Type} [Zero F] [One F] [Add F] [Mul F] [DecidableEq F]

/-- **C82**, dense product: element `(i, j)` of `α A B + β C` is the sum, from left to right, of
`(α a_ik) b_kj`, starting from `β c_ij`. -/
theorem C82_dense_multiply {N : Nat} (hN : 0 < N) {A B C : Dense F} {a b c : Mat F}
    (hA : A.Represents N a) (hB : B.Represents N b) (hC : C.Represents N c) (α β : F) :
    ∃ X, Dense.multiply A B C α β = .ok X ∧
      X.Represents N (fun i j => gemmCell N α β (a i) (fun k => b k j) (c i j)) := by
  obtain ⟨X, e, h⟩ := Res.wp_exists (Dense.wp_multiply_cells (E := False) hN
    (Dense.represents_iff.1 hA) (Dense.represents_iff.1 hB) (Dense.represents_iff.1 hC) α β)
  exact ⟨X, e, Dense.represents_iff.2 h⟩

theorem denseStored_step [Neg F] [Sub F] {N : Nat} (hN : 0 < N) (c : Cmd F) (ω : Env F)
    (S : Nat → Dense F) (s : Nat → Mat F) (h : ∀ v, (S v).Rep N (s v)) (hl : c.Legal N)
    (hv : ω.Valid N) :
    (denseValue N ω S c).wp False (fun A => A.Rep N (denseStored N s c)) := by
  have all : ∀ {f g : Mat F} {A : Dense F},
      A.Rep N (fun i j => if 0 ≤ i ∧ i < N then f i j else g i j) → A.Rep N f := fun hA =>
    hA.congr fun i j hi _ => if_pos ⟨Nat.zero_le i, hi⟩
  have sc : ∀ (x : F) v, (Dense.scaleInplace x (S v) 0 N).wp False
      (fun A => A.Rep N fun i j => x * s v i j) := fun x v =>
    Res.wp_mono (Dense.wp_scaleInplace (h v) x (Nat.zero_le N) (le_refl N)) fun _ => all
  cases c with
  | zero v => exact Dense.zero_rep N
  | identity v => exact Dense.wp_identity hv.rows
  | set i j x v => exact Dense.wp_setElement (h v) hl.1 hl.2 x
  | setRow t i row v => exact Dense.wp_setRow (h v) hl.1 hl.2
  | setDiagonal t d v => exact Dense.wp_setDiagonal (h v) hl
  | copyNew v w => exact Dense.wp_copyNew (h v) _
  | copy v w =>
    obtain ⟨A, e, h'⟩ := (C07_dense_copy (Dense.represents_iff.2 (h v))
      (Dense.represents_iff.2 (h w))).1 rfl
    show (Dense.bmlCopy _ _).wp _ _
    rw [e, Res.wp_ok]
    exact Dense.represents_iff.1 h'
  | scaleInplace c v => exact sc c v
  | scale c v w =>
    simp only [denseValue]
    split
    · exact sc c v
    · exact Res.wp_mono (Dense.wp_scale (h v) (h w) c (Nat.zero_le N) (le_refl N)) fun _ => all
  | add t α β w v =>
    exact Res.wp_mono (Dense.wp_add (h v) (h w) α β (Nat.zero_le N) (le_refl N)) fun _ => all
  | addIdentity t β v => exact Dense.wp_addIdentity_cells (h v) β hv.rows
  | scaleAddIdentity t α β v =>
    simp only [denseValue, Dense.scaleAddIdentity]
    rw [Res.wp_bind]
    exact Res.wp_mono (sc α v) fun B hB => Dense.wp_addIdentity_cells hB β hv.rows
  | threshold t v =>
    exact Res.wp_mono (Dense.wp_threshold (h v) t hv.elems (le_refl N)) fun _ => all
  | multiply t α β v w u => exact Dense.wp_multiply_cells hN (h v) (h w) (h u) α β
  | square t v w =>
    simp only [denseValue]
    rw [Res.wp_bind]
    exact Res.wp_mono (Dense.wp_multiplyX2_cells hN (h v) (h w) hv.rows hv.rows') fun r hr => hr
  | transpose v => exact Dense.wp_transpose (h v) hv.upper
  | transposeNew v w =>
    refine Res.wp_mono (Dense.wp_transposeNew (h v) hv.rows (le_refl N) _) ?_
    rintro B ⟨h1, h2, h3⟩
    exact ⟨h1, h2, fun i j hi hj => h3 i j (Nat.zero_le i) hi hj⟩

theorem denseShown_ask {N : Nat} (q : Ask) (ω : Env F) (S : Nat → Dense F)
    (s : Nat → Mat F) (h : ∀ v, (S v).Rep N (s v)) (hl : q.Legal N)
    (hq : NoSum (F := F) (.ask q)) : denseAsk ω S q = .ok (denseShown N s q) := by
  have list : ∀ {a : Arr F} {n : Nat} {f : Nat → F}, a.size = n → (∀ k, k < n → a.get k = f k) →
      elems a = (List.range n).map f := by
    intro a n f hs hf
    unfold elems
    rw [hs]
    exact List.map_congr_left fun k hk => hf k (List.mem_range.1 hk)
  cases q with
  | element i j v =>
    simp only [denseAsk]
    rw [(Dense.represents_iff.2 (h v)).get i j hl.1 hl.2]
    rfl
  | row i v =>
    obtain ⟨r, e, h1, h2⟩ := Res.wp_exists (Dense.wp_getRow (E := False) (h v) hl ω.vals)
    simp only [denseAsk]
    rw [e, Res.bind_ok, list h1 h2]
    rfl
  | diagonal v =>
    obtain ⟨r, e, h1, h2⟩ := Res.wp_exists (Dense.wp_getDiagonal (E := False) (h v) ω.vals)
    simp only [denseAsk]
    rw [e, Res.bind_ok, list h1 h2]
    rfl
  | trace v => exact absurd hq id
  | sumSquares v => exact absurd hq id
  | dense o v =>
    obtain ⟨D, e, h1, h2⟩ := Res.wp_exists (Dense.wp_export (E := False) (h v) o ω.vals)
    simp only [denseAsk]
    rw [e, Res.bind_ok]
    have key : ∀ k, k < N * N → k / N < N ∧ k % N < N ∧ (k / N) * N + k % N = k := fun k hk =>
      ⟨Nat.div_lt_of_lt_mul hk, Nat.mod_lt _ (Nat.pos_of_ne_zero fun e => by subst e; omega),
        Nat.div_add_mod' k N⟩
    cases o with
    | rowMajor =>
      simp only [denseShown]
      refine congrArg Res.ok (list h1 fun k hk => ?_)
      obtain ⟨k1, k2, k3⟩ := key k hk
      have := h2 _ _ k1 k2
      rwa [show Order.addr .rowMajor (k / N) (k % N) N = k from k3] at this
    | colMajor =>
      simp only [denseShown]
      refine congrArg Res.ok (list h1 fun k hk => ?_)
      obtain ⟨k1, k2, k3⟩ := key k hk
      have := h2 _ _ k2 k1
      rwa [show Order.addr .colMajor (k % N) (k / N) N = k by
        simp only [Order.addr, COLMAJOR]; omega] at this

/-- **C82**, dense programs: every run of a program, in any schedule and with any contents of fresh
memory, gives exactly the answers of `Spec.denseStored`: the same operations in the same order.  Every
call is allowed, and every question except the sums over the matrix. -/
theorem C82_dense_program [Neg F] [Sub F] {N : Nat} (hN : 0 < N) :
    ∀ {cs : List (Stmt F)} {p : List (Stmt F × Env F)},
    RunOf N cs p → (∀ c ∈ cs, Stmt.Legal N c ∧ NoSum c) → ∀ {S : Nat → Dense F} {s : Nat → Mat F},
    (∀ v, (S v).Represents N (s v)) →
    outputs (denseValue N) denseAsk p S = .ok (denseShownAll N cs s) := by
  intro cs p
  induction p generalizing cs with
  | nil =>
    rintro ⟨rfl, -⟩ _ S s _
    rfl
  | cons c p ih =>
    intro hr hl S s h
    obtain ⟨c, ω⟩ := c
    obtain ⟨rfl, hv⟩ := hr
    have hω := hv _ List.mem_cons_self
    have hrest : RunOf N (p.map Prod.fst) p := ⟨rfl, fun c hc => hv c (List.mem_cons_of_mem _ hc)⟩
    have hl' : ∀ c ∈ p.map Prod.fst, Stmt.Legal N c ∧ NoSum c := fun c hc =>
      hl c (List.mem_cons_of_mem _ hc)
    have hl0 := hl _ List.mem_cons_self
    have h' := fun v => Dense.represents_iff.1 (h v)
    cases c with
    | call c =>
      obtain ⟨A, e, hA⟩ := Res.wp_exists (denseStored_step hN c ω S s h' hl0.1 hω)
      have := ih hrest hl' (S := upd S c.target A)
        (s := upd s c.target (denseStored N s c)) (fun v => by
          by_cases hv : v = c.target
          · subst hv; rw [upd_same, upd_same]; exact Dense.represents_iff.2 hA
          · rw [upd_ne _ _ hv, upd_ne _ _ hv]; exact h v)
      show (denseValue N ω S c >>= fun A => outputs _ denseAsk p (upd S c.target A)) = _
      rw [e, Res.bind_ok, this]
      rfl
    | ask q =>
      have h1 := denseShown_ask q ω S s h' hl0.1 hl0.2
      have h2 := ih hrest hl' h
      show (denseAsk ω S q >>= fun x => outputs _ denseAsk p S >>= fun xs => pure (x :: xs)) = _
      rw [h1, Res.bind_ok, h2]
      rfl

/-- **C82**, dense reproducibility: two runs of the same program on matrices with the same elements
give the same answers to the last bit. -/
theorem C82_dense_reproducible [Neg F] [Sub F] {N : Nat} (hN : 0 < N) {cs : List (Stmt F)}
    (hl : ∀ c ∈ cs, Stmt.Legal N c ∧ NoSum c) {p p' : List (Stmt F × Env F)}
    (hp : RunOf N cs p) (hp' : RunOf N cs p') {S S' : Nat → Dense F} {s : Nat → Mat F}
    (hS : ∀ v, (S v).Represents N (s v)) (hS' : ∀ v, (S' v).Represents N (s v)) :
    ∃ out, outputs (denseValue N) denseAsk p S = .ok out ∧
      outputs (denseValue N) denseAsk p' S' = .ok out :=
  ⟨_, C82_dense_program hN hp hl hS, C82_dense_program hN hp' hl hS'⟩

/-- The diagonal matrix `8 1 1`, dense. -/
def dsDiag : Dense Short := ⟨3, ⟨9, fun p => if p = 0 then ⟨8⟩ else if p % 4 = 0 then ⟨1⟩ else ⟨0⟩⟩⟩

/-- **C82**, limit: the dense `bml_trace` depends on the schedule too. -/
theorem C82_dense_trace_varies : ∃ sc sc' : Sched, IsSched 0 3 sc ∧ IsSched 0 3 sc' ∧
    Dense.trace dsDiag sc = .ok ⟨8⟩ ∧ Dense.trace dsDiag sc' = .ok ⟨10⟩ :=
  ⟨[(0, 0), (0, 1), (0, 2)], [(0, 2), (0, 1), (0, 0)], by unfold IsSched; decide,
    by unfold IsSched; decide, by decide +kernel, by decide +kernel⟩

end Exact

/-! ## Rounding errors -/

section Error

variable {F : Type} [Zero F] [One F] [Add F] [Mul F]
variable {K : Type} [NormedField K] {val : F → K} {u : ℝ}

/-- Two rounded multiplications. -/
theorem mul_mul_error (h : Rounds val u) (a b c : F) :
    ‖val (a * b * c) - val a * val b * val c‖ ≤ ((1 + u) ^ 2 - 1) * ‖val a * val b * val c‖ := by
  have h1 := h.mul (a * b) c
  have h2 := h.mul a b
  have hu := h.unit
  have h3 := norm_sub_le_norm_sub_add_norm_sub (val (a * b * c)) (val (a * b) * val c)
    (val a * val b * val c)
  have h4 : ‖val (a * b) * val c - val a * val b * val c‖ ≤ u * ‖val a * val b‖ * ‖val c‖ := by
    rw [← sub_mul, norm_mul]
    exact mul_le_mul_of_nonneg_right h2 (norm_nonneg _)
  have h5 : ‖val (a * b)‖ ≤ (1 + u) * ‖val a * val b‖ := by
    have := norm_of_near h2
    linarith
  rw [norm_mul] at h1
  have h6 : u * (‖val (a * b)‖ * ‖val c‖) ≤ u * ((1 + u) * ‖val a * val b‖ * ‖val c‖) :=
    mul_le_mul_of_nonneg_left (mul_le_mul_of_nonneg_right h5 (norm_nonneg _)) hu
  rw [norm_mul (val a * val b)]
  generalize ‖val a * val b‖ = P at *
  generalize ‖val c‖ = Q at *
  calc _ ≤ _ := h3
    _ ≤ u * ((1 + u) * P * Q) + u * P * Q := by linarith
    _ = _ := by ring

/-- The error of the library's own inner product with start value. -/
theorem gemm_error [DecidableEq F] (h : Rounds val u) (h1 : val 1 = 1) (N : Nat) (α β : F)
    (x y : Nat → F) (z : F) :
    ‖val (gemmCell N α β x y z)
        - (val α * (∑ k ∈ Finset.range N, val (x k) * val (y k)) + val β * val z)‖
      ≤ ((1 + u) ^ (N + 2) - 1) * (‖val β‖ * ‖val z‖
        + ‖val α‖ * ∑ k ∈ Finset.range N, ‖val (x k)‖ * ‖val (y k)‖) := by
  have hu := h.unit
  have hpow : u ≤ (1 + u) ^ (N + 2) - 1 := by
    have := h.pow_mono (show 1 ≤ N + 2 by omega)
    rw [pow_one] at this
    linarith
  have hpos : 0 ≤ (1 + u) ^ (N + 2) - 1 := sub_nonneg.2 (h.one_le _)
  unfold gemmCell
  split
  · next h0 =>
    subst h0
    rw [h.zero, zero_mul, zero_add, norm_zero, zero_mul, add_zero]
    split
    · next hb =>
      subst hb
      rw [h1, one_mul, sub_self, norm_zero]
      positivity
    · split
      · next hb =>
        subst hb
        simp [h.zero]
      · have := h.mul β z
        rw [norm_mul] at this
        exact this.trans (mul_le_mul_of_nonneg_right hpow (by positivity))
  · have hs : SumOf (fun o : Option Nat => o.elim (gemmStart β z) fun k => α * x k * y k)
        ([none] ++ (List.range N).map some)
        (((List.range N).map fun k => α * x k * y k).foldl (· + ·) (gemmStart β z)) := by
      have := SumOf.foldl ((List.range N).map some) (SumOf.one
        (x := fun o : Option Nat => o.elim (gemmStart β z) fun k => α * x k * y k) none)
      rw [List.map_map] at this
      exact this
    have he := (SumOf.error h hs (fun o : Option Nat => o.elim (val β * val z) fun k =>
      val α * val (x k) * val (y k)) 2 (fun o ho => by
        cases o with
        | none =>
          simp only [Option.elim_none, gemmStart]
          have h2 := sub_nonneg.2 (h.one_le 2)
          split
          · next hb => subst hb; simp [h.zero]
          · split
            · next hb =>
              subst hb
              rw [h1, one_mul, sub_self, norm_zero]
              positivity
            · have := h.mul z β
              rw [mul_comm (val z)] at this
              refine this.trans (mul_le_mul_of_nonneg_right ?_ (norm_nonneg _))
              have := h.pow_mono (show 1 ≤ 2 by omega)
              rw [pow_one] at this
              linarith
        | some k => exact mul_mul_error h α (x k) (y k))).1
    have e1 : (([none] ++ (List.range N).map some).map (fun o : Option Nat =>
        o.elim (val β * val z) fun k => val α * val (x k) * val (y k))).sum
        = val α * (∑ k ∈ Finset.range N, val (x k) * val (y k)) + val β * val z := by
      rw [List.map_append, List.map_map, List.sum_append, add_comm, Finset.mul_sum,
        ← List.sum_toFinset _ List.nodup_range, List.toFinset_range]
      simp [mul_assoc]
      rfl
    have e2 : (([none] ++ (List.range N).map some).map (fun o : Option Nat =>
        ‖(o.elim (val β * val z) fun k => val α * val (x k) * val (y k) : K)‖)).sum
        = ‖val β‖ * ‖val z‖ + ‖val α‖ * ∑ k ∈ Finset.range N, ‖val (x k)‖ * ‖val (y k)‖ := by
      rw [List.map_append, List.map_map, List.sum_append, Finset.mul_sum,
        ← List.sum_toFinset _ List.nodup_range, List.toFinset_range]
      simp [mul_assoc]
    rw [e1, e2] at he
    have hlen : 2 + (([none] ++ (List.range N).map some).length - 1) = N + 2 := by
      simp
      omega
    rwa [hlen] at he

theorem near_gemm [DecidableEq F] (h : Rounds val u) (h1 : val 1 = 1) {N : Nat} (α β : F)
    {x y : Nat → F} {z : F} {x' y' : Nat → K} {z' : K} {e f : Nat → ℝ} {g : ℝ}
    (hx : ∀ k, k < N → ‖val (x k) - x' k‖ ≤ e k) (hy : ∀ k, k < N → ‖val (y k) - y' k‖ ≤ f k)
    (hz : ‖val z - z'‖ ≤ g) :
    ‖val (gemmCell N α β x y z)
        - (val α * (∑ k ∈ Finset.range N, x' k * y' k) + val β * z')‖
      ≤ errGemm u N (val α) (val β) x' e y' f z' g := by
  have h2 := gemm_error h h1 N α β x y z
  have h3 : ‖(∑ k ∈ Finset.range N, val (x k) * val (y k)) - ∑ k ∈ Finset.range N, x' k * y' k‖
      ≤ ∑ k ∈ Finset.range N, (‖x' k‖ * f k + e k * ‖y' k‖ + e k * f k) := by
    rw [← Finset.sum_sub_distrib]
    refine (norm_sum_le _ _).trans (Finset.sum_le_sum fun k hk => ?_)
    have hk := Finset.mem_range.1 hk
    have a1 := hx k hk
    have a2 := hy k hk
    generalize val (x k) = p at *
    generalize val (y k) = q at *
    have : p * q - x' k * y' k
        = x' k * (q - y' k) + (p - x' k) * y' k + (p - x' k) * (q - y' k) := by ring
    rw [this]
    have he : 0 ≤ e k := (norm_nonneg _).trans a1
    refine (norm_add_le _ _).trans (add_le_add ((norm_add_le _ _).trans (add_le_add ?_ ?_)) ?_)
    · rw [norm_mul]; exact mul_le_mul_of_nonneg_left a2 (norm_nonneg _)
    · rw [norm_mul]; exact mul_le_mul_of_nonneg_right a1 (norm_nonneg _)
    · rw [norm_mul]; exact mul_le_mul a1 a2 (norm_nonneg _) he
  have h4 : (∑ k ∈ Finset.range N, ‖val (x k)‖ * ‖val (y k)‖)
      ≤ ∑ k ∈ Finset.range N, (‖x' k‖ + e k) * (‖y' k‖ + f k) := by
    refine Finset.sum_le_sum fun k hk => ?_
    have hk := Finset.mem_range.1 hk
    have b1 := norm_of_near (hx k hk)
    exact mul_le_mul b1 (norm_of_near (hy k hk)) (norm_nonneg _) ((norm_nonneg _).trans b1)
  have h5 := norm_of_near hz
  have hpos : 0 ≤ (1 + u) ^ (N + 2) - 1 := sub_nonneg.2 (h.one_le _)
  have h6 : ((1 + u) ^ (N + 2) - 1) * (‖val β‖ * ‖val z‖
        + ‖val α‖ * ∑ k ∈ Finset.range N, ‖val (x k)‖ * ‖val (y k)‖)
      ≤ ((1 + u) ^ (N + 2) - 1) * (‖val β‖ * (‖z'‖ + g)
        + ‖val α‖ * ∑ k ∈ Finset.range N, (‖x' k‖ + e k) * (‖y' k‖ + f k)) :=
    mul_le_mul_of_nonneg_left (add_le_add (mul_le_mul_of_nonneg_left h5 (norm_nonneg _))
      (mul_le_mul_of_nonneg_left h4 (norm_nonneg _))) hpos
  generalize (∑ k ∈ Finset.range N, val (x k) * val (y k)) = P at *
  have h7 : ‖(val α * P + val β * val z)
        - (val α * (∑ k ∈ Finset.range N, x' k * y' k) + val β * z')‖
      ≤ ‖val β‖ * g
        + ‖val α‖ * ∑ k ∈ Finset.range N, (‖x' k‖ * f k + e k * ‖y' k‖ + e k * f k) := by
    have : (val α * P + val β * val z)
          - (val α * (∑ k ∈ Finset.range N, x' k * y' k) + val β * z')
        = val β * (val z - z') + val α * (P - ∑ k ∈ Finset.range N, x' k * y' k) := by ring
    rw [this]
    refine (norm_add_le _ _).trans ?_
    rw [norm_mul, norm_mul]
    exact add_le_add (mul_le_mul_of_nonneg_left hz (norm_nonneg _))
      (mul_le_mul_of_nonneg_left h3 (norm_nonneg _))
  have h8 := norm_sub_le_norm_sub_add_norm_sub (val (gemmCell N α β x y z))
    (val α * P + val β * val z)
    (val α * (∑ k ∈ Finset.range N, x' k * y' k) + val β * z')
  unfold errGemm
  linarith

theorem near_times (h : Rounds val u) (c : F) {y : F} {x : K} {e : ℝ} (hy : ‖val y - x‖ ≤ e) :
    ‖val (c * y) - val c * x‖ ≤ errScale u (val c) x e := by
  have hu := h.unit
  have hc := norm_nonneg (val c)
  have hx := norm_nonneg x
  have he : 0 ≤ e := (norm_nonneg _).trans hy
  unfold errScale
  have h1 := h.mul c y
  have h2 : ‖val c * val y - val c * x‖ ≤ ‖val c‖ * e := by
    rw [← mul_sub, norm_mul]
    exact mul_le_mul_of_nonneg_left hy hc
  have h3 := norm_sub_le_norm_sub_add_norm_sub (val (c * y)) (val c * val y) (val c * x)
  rw [norm_mul] at h1
  have h4 : u * (‖val c‖ * ‖val y‖) ≤ u * (‖val c‖ * (‖x‖ + e)) :=
    mul_le_mul_of_nonneg_left (mul_le_mul_of_nonneg_left (norm_of_near hy) hc) hu
  nlinarith

theorem near_plus (h : Rounds val u) (β : F) {y : F} {x : K} {e : ℝ} (hy : ‖val y - x‖ ≤ e) :
    ‖val (y + β) - (x + val β)‖ ≤ errShift u 0 x e (val β) := by
  have h1 := h.add y β
  have h2 := norm_sub_le_norm_sub_add_norm_sub (val (y + β)) (val y + val β) (x + val β)
  rw [add_sub_add_right_eq_sub] at h2
  have h3 : u * ‖val y + val β‖ ≤ u * (‖x‖ + e + ‖val β‖) := by
    refine mul_le_mul_of_nonneg_left ((norm_add_le _ _).trans ?_) h.unit
    linarith [norm_of_near hy]
  unfold errShift
  linarith

theorem near_combination (h : Rounds val u) (c d : F) {p q : F} {x y : K} {e f : ℝ}
    (hx : ‖val p - x‖ ≤ e) (hy : ‖val q - y‖ ≤ f) :
    ‖val (c * p + d * q) - (val c * x + val d * y)‖ ≤ errSum u 0 (val c) x e (val d) y f := by
  have h1 := (SumOf.error h (x := fun r : F × F => r.1 * r.2) (L := [(c, p)] ++ [(d, q)])
    (SumOf.add (SumOf.one (c, p)) (SumOf.one (d, q))) (fun r => val r.1 * val r.2) 1 (fun r _ => by
      rw [pow_one]
      simpa using h.mul r.1 r.2)).1
  simp only [List.cons_append, List.nil_append, List.map_cons, List.map_nil, List.sum_cons,
    List.sum_nil, add_zero, List.length_cons, List.length_nil, norm_mul] at h1
  have h2 : ‖(val c * val p + val d * val q) - (val c * x + val d * y)‖
      ≤ ‖val c‖ * e + ‖val d‖ * f := by
    have : (val c * val p + val d * val q) - (val c * x + val d * y)
        = val c * (val p - x) + val d * (val q - y) := by ring
    rw [this]
    refine (norm_add_le _ _).trans ?_
    rw [norm_mul, norm_mul]
    exact add_le_add (mul_le_mul_of_nonneg_left hx (norm_nonneg _))
      (mul_le_mul_of_nonneg_left hy (norm_nonneg _))
  have h3 := norm_sub_le_norm_sub_add_norm_sub (val (c * p + d * q))
    (val c * val p + val d * val q) (val c * x + val d * y)
  have h4 : ((1 + u) ^ 2 - 1) * (‖val c‖ * ‖val p‖ + ‖val d‖ * ‖val q‖)
      ≤ ((1 + u) ^ 2 - 1) * (‖val c‖ * (‖x‖ + e) + ‖val d‖ * (‖y‖ + f)) :=
    mul_le_mul_of_nonneg_left (add_le_add
      (mul_le_mul_of_nonneg_left (norm_of_near hx) (norm_nonneg _))
      (mul_le_mul_of_nonneg_left (norm_of_near hy) (norm_nonneg _))) (sub_nonneg.2 (h.one_le 2))
  unfold errSum
  norm_num at h1
  linarith

/-- One call on dense matrices: the stored elements stay within the bounds. -/
theorem dense_near_step [DecidableEq F] (h : Rounds val u) (h1 : val 1 = 1) {τ : (F → Bool) → ℝ}
    {N : Nat} {s : Nat → Mat F} {x : Nat → Mat K} {e : Nat → Mat ℝ}
    (hn : ∀ v i j, i < N → j < N → ‖val (s v i j) - x v i j‖ ≤ e v i j) (c : Cmd F)
    (hd : DenseDrops val τ c) {i j : Nat} (hi : i < N) (hj : j < N) :
    ‖val (denseStored N s c i j) - exact val N x c i j‖ ≤ denseBound val u τ N x e c i j := by
  cases c with
  | zero v => simp [denseStored, exact, denseBound, h.zero]
  | identity v =>
    simp only [denseStored, exact, denseBound]
    split
    · simp [h1]
    · simp [h.zero]
  | set i' j' y v =>
    simp only [denseStored, exact, denseBound]
    split
    · simp
    · exact hn v i j hi hj
  | setRow t i' row v =>
    simp only [denseStored, exact, denseBound]
    split
    · simp
    · exact hn v i j hi hj
  | setDiagonal t d v =>
    simp only [denseStored, exact, denseBound]
    split
    · simp
    · exact hn v i j hi hj
  | copyNew v w => exact hn v i j hi hj
  | copy v w => exact hn v i j hi hj
  | scaleInplace c v => exact near_times h c (hn v i j hi hj)
  | scale c v w => exact near_times h c (hn v i j hi hj)
  | add t α β w v => exact near_combination h α β (hn v i j hi hj) (hn w i j hi hj)
  | addIdentity t β v =>
    simp only [denseStored, exact, denseBound]
    split
    · exact near_plus h β (hn v i j hi hj)
    · rw [add_zero]; exact hn v i j hi hj
  | scaleAddIdentity t α β v =>
    simp only [denseStored, exact, denseBound]
    split
    · exact near_plus h β (near_times h α (hn v i j hi hj))
    · rw [add_zero]; exact near_times h α (hn v i j hi hj)
  | threshold t v => exact near_keep h hd (hn v i j hi hj)
  | multiply t α β v w c =>
    exact near_gemm h h1 α β (fun k hk => hn v i k hi hk) (fun k hk => hn w k j hk hj)
      (hn c i j hi hj)
  | square t v w =>
    have := near_gemm h h1 (N := N) 1 0 (z := s w i j) (z' := val (s w i j)) (g := 0)
      (fun k hk => hn v i k hi hk) (fun k hk => hn v k j hk hj) (by simp)
    rw [h1, h.zero, one_mul, zero_mul, add_zero] at this
    simp only [denseStored, exact, denseBound]
    refine this.trans (le_of_eq ?_)
    simp [errGemm]
  | transpose v => exact hn v j i hj hi
  | transposeNew v w => exact hn v j i hj hi

variable [Neg F] [Sub F] [DecidableEq F]

/-- **C83**, dense programs: after a program of any length, with any calls, the stored elements differ
from the exact values by at most the accumulated bound, for every schedule and every content of fresh
memory. -/
theorem C83_dense_program (h : Rounds val u) (h1 : val 1 = 1) {τ : (F → Bool) → ℝ} {N : Nat}
    (hN : 0 < N) : ∀ {p : List (Cmd F × Env F)} {S : Nat → Dense F}
    {s : Nat → Mat F} {x : Nat → Mat K} {e : Nat → Mat ℝ},
    (∀ c ∈ p, c.1.Legal N ∧ c.2.Valid N ∧ DenseDrops val τ c.1) →
    (∀ v, (S v).Represents N (s v)) →
    (∀ v i j, i < N → j < N → ‖val (s v i j) - x v i j‖ ≤ e v i j) →
    ∃ (S' : Nat → Dense F) (a : Nat → Mat F), run (denseValue N) p S = .ok S' ∧
      (∀ v, (S' v).Represents N (a v)) ∧ ∀ v i j, i < N → j < N →
        ‖val (a v i j) - (denseEstimate val u τ N (p.map Prod.fst) (x, e)).1 v i j‖
          ≤ (denseEstimate val u τ N (p.map Prod.fst) (x, e)).2 v i j := by
  intro p
  induction p with
  | nil =>
    intro S s x e _ hS hn
    exact ⟨S, s, rfl, hS, hn⟩
  | cons c p ih =>
    intro S s x e hp hS hn
    obtain ⟨c, ω⟩ := c
    obtain ⟨hl, hω, hd⟩ := hp _ List.mem_cons_self
    obtain ⟨A, eA, hA⟩ := Res.wp_exists
      (denseStored_step hN c ω S s (fun v => Dense.represents_iff.1 (hS v)) hl hω)
    obtain ⟨S', a, e1, e2, e3⟩ := ih (S := upd S c.target A)
      (s := upd s c.target (denseStored N s c)) (x := upd x c.target (exact val N x c))
      (e := upd e c.target (denseBound val u τ N x e c))
      (fun c hc => hp c (List.mem_cons_of_mem _ hc))
      (fun v => by
        by_cases hv : v = c.target
        · subst hv; rw [upd_same, upd_same]; exact Dense.represents_iff.2 hA
        · rw [upd_ne _ _ hv, upd_ne _ _ hv]; exact hS v)
      (fun v i j hi hj => by
        by_cases hv : v = c.target
        · subst hv
          rw [upd_same, upd_same, upd_same]
          exact dense_near_step h h1 hn c hd hi hj
        · rw [upd_ne _ _ hv, upd_ne _ _ hv, upd_ne _ _ hv]
          exact hn v i j hi hj)
    refine ⟨S', a, ?_, e2, e3⟩
    show (denseValue N ω S c >>= fun A => run (denseValue N) p (upd S c.target A)) = _
    rw [eA, Res.bind_ok, e1]

omit [Neg F] [Sub F] [DecidableEq F] in
/-- **C83**, dense trace. -/
theorem C83_dense_trace (h : Rounds val u) {N : Nat} {A : Dense F} {a : Mat F}
    (hA : A.Represents N a) {sc : Sched} (hsc : IsSched 0 N sc) {ts : List Nat} (hn : ts.Nodup)
    (hts : ∀ e ∈ sc, e.1 ∈ ts) :
    ∃ part : Nat → F, (∀ t, Dense.trace A (sc.filter fun e => decide (e.1 = t)) = .ok (part t)) ∧
      ∀ total, SumOf part ts total →
        ‖val total - ∑ i ∈ Finset.range N, val (a i i)‖
          ≤ ((1 + u) ^ (N - 1) - 1) * ∑ i ∈ Finset.range N, ‖val (a i i)‖ := by
  have hlt : ∀ t, ∀ e ∈ sc.filter (fun e => decide (e.1 = t)), e.2 < N := by
    intro t e he
    exact ((hsc.mem e.2).1 (List.mem_map_of_mem (List.mem_filter.1 he).1)).2
  have hp := fun t => Res.wp_exists (Dense.wp_trace_sum (E := False) (Dense.represents_iff.1 hA) (hlt t))
  choose part h1 h2 using hp
  refine ⟨part, h1, fun total ht => ?_⟩
  have hs := (SumOf.bind h2 ht).perm (threads_perm hsc hn hts)
  have he := (SumOf.error h hs (fun i => val (a i i)) 0 (fun i hi => by simp)).1
  rw [List.length_range, Nat.zero_add] at he
  exact he

omit [NormedField K] [Zero F] [One F] [Add F] [Mul F] [Neg F] [Sub F] [DecidableEq F] in
theorem sum_cells {M : Type} [AddCommMonoid M] (N : Nat) (g : Nat → Nat → M) :
    ((List.range (N * N)).map fun p => g (p / N) (p % N)).sum
      = ∑ i ∈ Finset.range N, ∑ j ∈ Finset.range N, g i j := by
  have key : ∀ n, ((List.range (n * N)).map fun p => g (p / N) (p % N)).sum
      = ∑ i ∈ Finset.range n, ∑ j ∈ Finset.range N, g i j := by
    intro n
    induction n with
    | zero => simp
    | succ n ih =>
      rw [Nat.add_mul, Nat.one_mul, List.range_add, List.map_append, List.sum_append, ih,
        Finset.sum_range_succ, List.map_map, ← List.sum_toFinset _ List.nodup_range,
        List.toFinset_range]
      congr 1
      refine Finset.sum_congr rfl fun j hj => ?_
      have hj := Finset.mem_range.1 hj
      simp only [Function.comp]
      rw [Dense.addr_div hj, Dense.addr_mod hj]
  exact key N

omit [Neg F] [Sub F] [DecidableEq F] in
/-- **C83**, dense sum of squares: the cells of the matrix are spread over the threads in any way. -/
theorem C83_dense_sum_squares (h : Rounds val u) {N : Nat} {A : Dense F} {a : Mat F}
    (hA : A.Represents N a) {sc : Sched} (hsc : IsSched 0 (N * N) sc) {ts : List Nat}
    (hn : ts.Nodup) (hts : ∀ e ∈ sc, e.1 ∈ ts) :
    ∃ part : Nat → F,
      (∀ t, Dense.sumSquares A (sc.filter fun e => decide (e.1 = t)) = .ok (part t)) ∧
      ∀ total, SumOf part ts total →
        ‖val total - ∑ i ∈ Finset.range N, ∑ j ∈ Finset.range N, val (a i j) * val (a i j)‖
          ≤ ((1 + u) ^ (1 + (N * N - 1)) - 1)
            * ∑ i ∈ Finset.range N, ∑ j ∈ Finset.range N, ‖val (a i j)‖ * ‖val (a i j)‖ := by
  have hlt : ∀ t, ∀ e ∈ sc.filter (fun e => decide (e.1 = t)), e.2 < N * N := by
    intro t e he
    exact ((hsc.mem e.2).1 (List.mem_map_of_mem (List.mem_filter.1 he).1)).2
  have hp := fun t => Res.wp_exists
    (Dense.wp_sumSquares_sum (E := False) (Dense.represents_iff.1 hA) (hlt t))
  choose part h1 h2 using hp
  refine ⟨part, h1, fun total ht => ?_⟩
  have hs := (SumOf.bind h2 ht).perm (threads_perm hsc hn hts)
  have he := (SumOf.error h hs (fun p => val (a (p / N) (p % N)) * val (a (p / N) (p % N))) 1
    (fun p _ => by
      rw [pow_one]
      simpa using h.mul (a (p / N) (p % N)) (a (p / N) (p % N)))).1
  simp only [norm_mul] at he
  rw [List.length_range, sum_cells N fun i j => val (a i j) * val (a i j),
    sum_cells N fun i j => ‖val (a i j)‖ * ‖val (a i j)‖] at he
  exact he

omit [Neg F] [Sub F] [DecidableEq F] in
/-- **C83**, dense `bml_trace_mult`: the sum of the products of corresponding elements. -/
theorem C83_dense_trace_mult (h : Rounds val u) {N : Nat} {A B : Dense F} {a b : Mat F}
    (hA : A.Represents N a) (hB : B.Represents N b) {sc : Sched} (hsc : IsSched 0 (N * N) sc)
    {ts : List Nat} (hn : ts.Nodup) (hts : ∀ e ∈ sc, e.1 ∈ ts) :
    ∃ part : Nat → F,
      (∀ t, Dense.traceMult A B (sc.filter fun e => decide (e.1 = t)) = .ok (part t)) ∧
      ∀ total, SumOf part ts total →
        ‖val total - ∑ i ∈ Finset.range N, ∑ j ∈ Finset.range N, val (a i j) * val (b i j)‖
          ≤ ((1 + u) ^ (1 + (N * N - 1)) - 1)
            * ∑ i ∈ Finset.range N, ∑ j ∈ Finset.range N, ‖val (a i j)‖ * ‖val (b i j)‖ := by
  have hlt : ∀ t, ∀ e ∈ sc.filter (fun e => decide (e.1 = t)), e.2 < N * N := by
    intro t e he
    exact ((hsc.mem e.2).1 (List.mem_map_of_mem (List.mem_filter.1 he).1)).2
  have hp := fun t => Res.wp_exists (Dense.wp_traceMult_sum (E := False)
    (Dense.represents_iff.1 hA) (Dense.represents_iff.1 hB) (hlt t))
  choose part h1 h2 using hp
  refine ⟨part, h1, fun total ht => ?_⟩
  have hs := (SumOf.bind h2 ht).perm (threads_perm hsc hn hts)
  have he := (SumOf.error h hs (fun p => val (a (p / N) (p % N)) * val (b (p / N) (p % N))) 1
    (fun p _ => by
      rw [pow_one]
      simpa using h.mul (a (p / N) (p % N)) (b (p / N) (p % N)))).1
  simp only [norm_mul] at he
  rw [List.length_range, sum_cells N fun i j => val (a i j) * val (b i j),
    sum_cells N fun i j => ‖val (a i j)‖ * ‖val (b i j)‖] at he
  exact he

omit [Zero F] [One F] [Add F] [Mul F] [Neg F] [Sub F] [DecidableEq F] in
/-- Without rounding and without thresholds the dense bounds stay zero. -/
theorem denseEstimate_zero (val : F → K) (N : Nat) : ∀ (cs : List (Cmd F)) (x : Nat → Mat K),
    (denseEstimate val 0 (fun _ => 0) N cs (x, fun _ _ _ => 0)).2 = fun _ _ _ => 0 := by
  intro cs
  induction cs with
  | nil => intro x; rfl
  | cons c cs ih =>
    intro x
    have hb : denseBound val 0 (fun _ => 0) N x (fun _ _ _ => 0) c = fun _ _ => 0 := by
      funext i j
      cases c <;> simp [denseBound, errScale, errShift, errSum, errGemm]
    have : upd (fun _ _ _ => (0 : ℝ)) c.target (denseBound val 0 (fun _ => 0) N x (fun _ _ _ => 0) c)
        = fun _ _ _ => (0 : ℝ) := by
      funext v
      by_cases hv : v = c.target
      · subst hv; rw [upd_same, hb]
      · rw [upd_ne _ _ hv]
    show (denseEstimate val 0 (fun _ => 0) N cs (_, upd _ _ _)).2 = _
    rw [this]
    exact ih _

end Error

/-! ## Examples: three-bit arithmetic -/

theorem dsDiag_represents : dsDiag.Represents 3
    (fun i j => if i = j then (if i = 0 then ⟨8⟩ else ⟨1⟩) else ⟨0⟩) := by
  refine ⟨rfl, rfl, fun i j hi hj => ?_⟩
  interval_cases i <;> interval_cases j <;> rfl

/-- Every kind of call that the ELLPACK theorem leaves out is here. -/
def dsStmts : List (Stmt Short) :=
  [.call (.set 0 2 ⟨9⟩ 0), .call (.transposeNew 0 1), .call (.transpose 1),
    .call (.multiply shBig ⟨3⟩ ⟨5⟩ 0 1 2), .call (.square shBig 2 3),
    .ask (.dense .rowMajor 3), .ask (.row 0 2)]

/-- Two environments, the same answers, to the last bit. -/
example : ∃ out,
    outputs (denseValue 3) denseAsk
      (dsStmts.map fun c => (c, shEnv 3 [(1, 2), (0, 1), (1, 0)] true ⟨5⟩)) (fun _ => dsDiag)
      = .ok out ∧
    outputs (denseValue 3) denseAsk
      (dsStmts.map fun c => (c, shEnv 3 [(0, 0), (0, 1), (0, 2)] false ⟨7⟩)) (fun _ => dsDiag)
      = .ok out := by
  have hrun : ∀ ω : Env Short, ω.Valid 3 → RunOf 3 dsStmts (dsStmts.map fun c => (c, ω)) := by
    intro ω hω
    refine ⟨by rw [List.map_map]; exact List.map_id _, ?_⟩
    rintro c hc
    obtain ⟨d, -, rfl⟩ := List.mem_map.1 hc
    exact hω
  refine C82_dense_reproducible (by decide) (cs := dsStmts) ?_
    (hrun _ (shEnv_valid (by unfold IsSched; decide) _ _))
    (hrun _ (shEnv_valid (by unfold IsSched; decide) _ _))
    (fun _ => dsDiag_represents) (fun _ => dsDiag_represents)
  intro c hc
  simp only [dsStmts, List.mem_cons, List.not_mem_nil, or_false] at hc
  rcases hc with rfl | rfl | rfl | rfl | rfl | rfl | rfl <;>
    simp [Stmt.Legal, Cmd.Legal, Ask.Legal, NoSum]

/-- The answers are those of rounded arithmetic: `3 · 8 · 8 + 5 · 8 = 232` becomes 224. -/
example : ∃ X, Dense.multiply dsDiag dsDiag dsDiag ⟨3⟩ ⟨5⟩ = .ok X ∧ X.getElement 0 0 = .ok ⟨224⟩ := by
  obtain ⟨X, e, h⟩ := C82_dense_multiply (N := 3) (by decide) dsDiag_represents dsDiag_represents
    dsDiag_represents ⟨3⟩ ⟨5⟩
  exact ⟨X, e, (h.get 0 0 (by decide) (by decide)).trans (by decide +kernel)⟩

/-- The error of that product, `8`, is within the bound. -/
example : ∃ (S' : Nat → Dense Short) (b : Nat → Mat Short), run (denseValue 3)
      [(.multiply shBig ⟨3⟩ ⟨5⟩ 0 1 2, shEnv 3 [(1, 2), (0, 1), (1, 0)] true ⟨5⟩)]
      (fun _ => dsDiag) = .ok S' ∧ (∀ v, (S' v).Represents 3 (b v)) ∧
      |((b 2 0 0).val : ℝ) - 232| ≤ ((5 / 4) ^ 5 - 1) * 232 := by
  have hω : (shEnv 3 [(1, 2), (0, 1), (1, 0)] true ⟨5⟩).Valid 3 :=
    shEnv_valid (by unfold IsSched; decide) _ _
  obtain ⟨S', b, e1, e2, e3⟩ := C83_dense_program (val := fun x : Short => (x.val : ℝ)) Short.rounds
    (show ((1 : Int) : ℝ) = 1 by norm_num) (τ := fun _ => 0) (N := 3) (by decide)
    (p := [(.multiply shBig ⟨3⟩ ⟨5⟩ 0 1 2, shEnv 3 [(1, 2), (0, 1), (1, 0)] true ⟨5⟩)])
    (S := fun _ => dsDiag) (e := fun _ _ _ => 0)
    (fun c hc => by
      simp only [List.mem_cons, List.not_mem_nil, or_false] at hc
      subst hc
      exact ⟨⟨by decide, by decide⟩, hω, trivial⟩)
    (fun _ => dsDiag_represents) (fun v i j _ _ => by rw [sub_self, norm_zero])
  refine ⟨S', b, e1, e2, ?_⟩
  have := e3 2 0 0 (by decide) (by decide)
  simp [denseEstimate, exact, denseBound, errGemm, Cmd.target, upd, Finset.sum_range_succ] at this
  norm_num at this ⊢
  linarith

/-- Two threads add the diagonal `8 1 1` to 8 or 10; both are within `(25/16 - 1) · 10` of 10. -/
example : ∃ part : Nat → Short,
    (∀ t, Dense.trace dsDiag (([(0, 0), (1, 1), (1, 2)] : Sched).filter fun e => decide (e.1 = t))
      = .ok (part t)) ∧
    ∀ total, SumOf part [0, 1] total →
      ‖(total.val : ℝ) - 10‖ ≤ ((1 + 1 / 4) ^ 2 - 1) * 10 := by
  obtain ⟨part, h1, h2⟩ := C83_dense_trace (val := fun x : Short => (x.val : ℝ)) Short.rounds
    dsDiag_represents (sc := [(0, 0), (1, 1), (1, 2)]) (by unfold IsSched; decide) (ts := [0, 1])
    (by decide) (by decide)
  refine ⟨part, h1, fun total ht => ?_⟩
  have := h2 total ht
  norm_num [Finset.sum_range_succ] at this ⊢
  exact this

example : ∃ part : Nat → Short, (∀ t, Dense.traceMult dsDiag dsDiag
      ((seqSched 0 9).filter fun e => decide (e.1 = t)) = .ok (part t)) ∧
    ∀ total, SumOf part [0] total →
      ‖(total.val : ℝ) - 66‖ ≤ ((1 + 1 / 4) ^ 9 - 1) * 66 := by
  obtain ⟨part, h1, h2⟩ := C83_dense_trace_mult (val := fun x : Short => (x.val : ℝ)) Short.rounds
    dsDiag_represents dsDiag_represents (sc := seqSched 0 9) (isSched_seq _ _) (ts := [0])
    (by decide) (by decide)
  refine ⟨part, h1, fun total ht => ?_⟩
  have := h2 total ht
  norm_num [Finset.sum_range_succ] at this ⊢
  exact this

end Bml.Props
