import Verif.Round.Error
import Verif.Dense.Ops

/-!
# Dense matrices without laws of arithmetic

Which operations, in which order, give each element of a result.
-/

set_option linter.unusedSectionVars false

namespace Bml.Spec

variable {F : Type} [Zero F] [One F] [Add F] [Mul F] [DecidableEq F]

/-- The number from which the products are summed in `α x·y + β z`. -/
def gemmStart (β z : F) : F := if β = 0 then 0 else if β = 1 then z else z * β

/-- `α (x 0 * y 0 + … + x (N-1) * y (N-1)) + β z` as the library's own matrix product computes it:
`((start + (α * x 0) * y 0) + (α * x 1) * y 1) + …`, and no products at all if `α` is zero. -/
def gemmCell (N : Nat) (α β : F) (x y : Nat → F) (z : F) : F :=
  if α = 0 then (if β = 1 then z else if β = 0 then 0 else β * z)
  else ((List.range N).map fun k => α * x k * y k).foldl (· + ·) (gemmStart β z)

end Bml.Spec

namespace Bml.Dense

variable {F : Type} [Zero F] [One F] [Add F] [Mul F] {E : Prop}

theorem wp_addIdentity_cells {N : Nat} {A : Dense F} {a : Spec.Mat F} (hA : A.Rep N a) (β : F)
    {sc : Sched} (hsc : IsSched 0 N sc) :
    (addIdentity A β sc).wp E (fun A' => A'.Rep N (fun i j =>
      if i = j then a i j + β else a i j)) := by
  unfold addIdentity
  rw [Res.wp_bind, hA.dim]
  refine Res.wp_mono (wp_fill hsc (fun i p => p = i * N + i) (fun p => A.mat.get p + β) ?_ ?_) ?_
  · intro i j p _ hi _ hj h1 h2
    exact (addr_inj (by omega) (by omega) (h1.symm.trans h2)).1
  · intro t i x _ hi hs h _
    have hlt : i * N + i < N * N := addr_lt (by omega) (by omega)
    simp only [ROWMAJOR]
    rw [Arr.read_ok (by rw [hs, hA.size]; exact hlt), Res.bind_ok, Arr.wp_write]
    exact ⟨by rw [hs, hA.size]; exact hlt, filled1_write (by rw [h _ rfl])⟩
  · rintro x ⟨h1, h2, h3⟩
    rw [Res.wp_pure]
    refine ⟨rfl, by rw [← hA.size]; exact h1, fun i j hiN hj => ?_⟩
    by_cases h : i = j
    · subst h
      rw [if_pos rfl, h2 i _ (Nat.zero_le i) hiN rfl, hA.get i i hiN hiN]
    · rw [if_neg h, h3, hA.get i j hiN hj]
      intro k hk1 hk2 he
      have := addr_inj hj (by omega : k < N) he
      omega

theorem accum_foldl (f : Nat → F) : ∀ (n : Nat) (s : F),
    Gemm.accum s f n = ((List.range n).map f).foldl (· + ·) s := by
  intro n
  induction n with
  | zero => intro s; rfl
  | succ n ih =>
    intro s
    rw [List.range_succ, List.map_append, List.foldl_append, ← ih]
    rfl

theorem wp_multiply_cells [DecidableEq F] {N : Nat} (hN : 0 < N) {A B C : Dense F}
    {a b c : Spec.Mat F} (hA : A.Rep N a) (hB : B.Rep N b) (hC : C.Rep N c) (α β : F) :
    (multiply A B C α β).wp E (fun C' => C'.Rep N (fun i j =>
      Spec.gemmCell N α β (a i) (fun k => b k j) (c i j))) := by
  unfold multiply
  rw [Res.wp_bind, hA.dim]
  have hinfo : Gemm.info 'N' 'N' N N N N N N = 0 := by
    have : (1 : Int) ≤ N := by omega
    have h0 : ¬ (N : Int) < 0 := by omega
    have h1 : N ≠ 0 := by omega
    simp [Gemm.info, h0, h1]
  refine Res.wp_mono (Gemm.wp_gemm (m := N) (n := N) (k := N) α β hinfo hB.size hA.size hC.size) ?_
  rintro x ⟨h1, h2⟩
  rw [Res.wp_pure]
  refine ⟨hC.dim, h1, fun i j hi hj => ?_⟩
  have := h2 j i hj hi
  simp only
  rw [Nat.add_comm, this, Nat.add_comm, hC.get i j hi hj]
  unfold Gemm.cell Spec.gemmCell
  split
  · rfl
  · rw [if_neg (by omega), if_pos rfl, accum_foldl]
    have e0 : Gemm.initCell β (c i j) = Spec.gemmStart β (c i j) := by
      unfold Gemm.initCell Spec.gemmStart
      by_cases h0 : β = 0
      · rw [if_pos h0, if_pos h0]
      · by_cases h1 : β = 1
        · rw [if_neg h0, if_neg h0, if_neg (by simpa using h1), if_pos h1]
        · rw [if_neg h0, if_neg h0, if_pos h1, if_neg h1]
    rw [e0]
    congr 1
    refine List.map_congr_left fun k hk => ?_
    have hk := List.mem_range.1 hk
    simp only [Gemm.opA, Gemm.opB, if_true]
    rw [Nat.add_comm k, hA.get i k hi hk, Nat.add_comm j, hB.get k j hk hj]

/-- A reduction adds the numbers it is given. -/
theorem wp_reduceCells {sc : Sched} {f : Nat → Res F} {g : Nat → F}
    (hf : ∀ e ∈ sc, f e.2 = .ok (g e.2)) :
    (reduceCells sc f).wp E (fun t => Spec.SumOf g (sc.map Prod.snd) t) := by
  unfold reduceCells
  refine wp_forList (fun pre (t : F) => Spec.SumOf g (pre.map Prod.snd) t) Spec.SumOf.zero ?_
    (fun _ h => h)
  rintro pre ⟨th, i⟩ post rfl t ht
  rw [hf (th, i) (by simp), Res.bind_ok, Res.pure_eq, Res.wp_ok, List.map_append]
  exact Spec.SumOf.add ht (Spec.SumOf.one (x := g) i)

theorem wp_trace_sum {N : Nat} {A : Dense F} {a : Spec.Mat F} (hA : A.Rep N a) {sc : Sched}
    (hsc : ∀ e ∈ sc, e.2 < N) :
    (trace A sc).wp E (fun t => Spec.SumOf (fun i => a i i) (sc.map Prod.snd) t) := by
  unfold trace
  rw [hA.dim]
  exact wp_reduceCells fun e he => read_cell hA (hsc e he) (hsc e he)

theorem wp_sumSquares_sum {N : Nat} {A : Dense F} {a : Spec.Mat F} (hA : A.Rep N a) {sc : Sched}
    (hsc : ∀ e ∈ sc, e.2 < N * N) :
    (sumSquares A sc).wp E (fun t => Spec.SumOf (fun p => a (p / N) (p % N) * a (p / N) (p % N))
      (sc.map Prod.snd) t) := by
  unfold sumSquares
  refine wp_reduceCells fun e he => ?_
  have hlt := hsc e he
  have h1 : e.2 / N < N := Nat.div_lt_of_lt_mul hlt
  have h2 : e.2 % N < N := Nat.mod_lt _ (Nat.pos_of_ne_zero fun h => by subst h; omega)
  have h3 : e.2 / N * N + e.2 % N = e.2 := Nat.div_add_mod' e.2 N
  have := read_cell hA h1 h2
  rw [h3] at this
  rw [this]
  rfl

theorem wp_traceMult_sum {N : Nat} {A B : Dense F} {a b : Spec.Mat F} (hA : A.Rep N a)
    (hB : B.Rep N b) {sc : Sched} (hsc : ∀ e ∈ sc, e.2 < N * N) :
    (traceMult A B sc).wp E (fun t => Spec.SumOf (fun p => a (p / N) (p % N) * b (p / N) (p % N))
      (sc.map Prod.snd) t) := by
  unfold traceMult
  rw [if_neg (by rw [hA.dim, hB.dim]; simp)]
  refine wp_reduceCells fun e he => ?_
  have hlt := hsc e he
  have h1 : e.2 / N < N := Nat.div_lt_of_lt_mul hlt
  have h2 : e.2 % N < N := Nat.mod_lt _ (Nat.pos_of_ne_zero fun h => by subst h; omega)
  have h3 : e.2 / N * N + e.2 % N = e.2 := Nat.div_add_mod' e.2 N
  have hr := read_cell hA h1 h2
  have hr' := read_cell hB h1 h2
  rw [h3] at hr hr'
  rw [hr, Res.bind_ok, hr']
  rfl

theorem wp_multiplyX2_cells [DecidableEq F] {N : Nat} (hN : 0 < N) {X C : Dense F}
    {x c : Spec.Mat F} (hX : X.Rep N x) (hC : C.Rep N c) {sc sc' : Sched} (hsc : IsSched 0 N sc)
    (hsc' : IsSched 0 N sc') :
    (multiplyX2 X C sc sc').wp E (fun r => r.1.Rep N (fun i j =>
      Spec.gemmCell N 1 0 (x i) (fun k => x k j) (c i j))) := by
  unfold multiplyX2
  rw [Res.wp_bind]
  refine Res.wp_mono (wp_trace_sum hX fun e he =>
    ((hsc.mem e.2).1 (List.mem_map_of_mem he)).2) fun t _ => ?_
  rw [Res.wp_bind]
  refine Res.wp_mono (wp_multiply_cells hN hX hX hC 1 0) fun B hB => ?_
  rw [Res.wp_bind]
  refine Res.wp_mono (wp_trace_sum hB fun e he =>
    ((hsc'.mem e.2).1 (List.mem_map_of_mem he)).2) fun t' _ => ?_
  rw [Res.wp_pure]
  exact hB

end Bml.Dense
