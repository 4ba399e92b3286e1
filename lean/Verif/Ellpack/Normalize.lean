import Verif.Ellpack.Apps
import Verif.Ellpack.Norms
import Verif.Gershgorin

/-!
# ELLPACK: Gershgorin bounds and normalization
-/

set_option linter.unusedSectionVars false

namespace Bml

namespace Ell

variable {R : Type} [CommRing R] {E : Prop} {K : Type} [Field K] [LinearOrder K]

theorem offdiag_sum {N i : Nat} {L : SRow R} (hL : SRow.Good N L) (absv : R → K) (h0 : absv 0 = 0) :
    (L.map (fun p => if p.1 = i then 0 else absv p.2)).sum =
      ∑ j ∈ (Finset.range N).filter (fun j => j ≠ i), absv (L.den j) := by
  rw [← SRow.sum_den_map hL (fun k v => if k = i then 0 else absv v)
    (fun k => by simp only [h0, ite_self]), Finset.sum_filter]
  refine Finset.sum_congr rfl (fun j _ => ?_)
  by_cases hj : j = i <;> simp [hj]

theorem wp_gershRow {N : Nat} {A : Ell R} {a : Spec.Mat R} (hA : A.Rep N a) {i : Nat} (hi : i < N)
    (absv : R → K) (h0 : absv 0 = 0) :
    (gershRow A absv i).wp E (fun dr => dr = (a i i, Spec.radius absv N a i)) := by
  have hd := hA.dim
  have hle := hA.le i hi
  unfold gershRow
  rw [read_nnz hA.shape (by omega), Res.bind_ok]
  refine wp_loop' (fun n (st : R × K) => st.1 = (A.rowPre i n).den i ∧
    st.2 = ((A.rowPre i n).map (fun p => if p.1 = i then 0 else absv p.2)).sum)
    (by constructor <;> simp [rowPre]) ?_ ?_
  · rintro n hn ⟨d, r⟩ ⟨h1, h2⟩
    simp only at h1 h2
    subst h1 h2
    rw [read_idx hA.shape (by omega) (by omega), Res.bind_ok,
      read_val hA.shape (by omega) (by omega), Res.bind_ok]
    have hsub : (A.rowPre i (n + 1)).Sublist (A.row i) := by
      unfold row
      have : A.rowPre i (n + 1) = (A.rowPre i (A.nnz.get i)).take (n + 1) := by
        unfold rowPre
        rw [← List.map_take, List.take_range, Nat.min_eq_left (by omega)]
      rw [this]
      exact List.take_sublist _ _
    have hg := (hA.good i hi).sublist hsub
    have hgn := hg.1
    rw [rowPre_succ, List.map_append, List.nodup_append] at hgn
    by_cases he : i = A.idx.get (i * A.M + n)
    · rw [if_pos he, Res.pure_eq, Res.wp_ok, rowPre_succ]
      have hno : i ∉ (A.rowPre i n).map Prod.fst := by
        intro hm
        exact hgn.2.2 i hm i (by simp [← he]) rfl
      simp only [SRow.den_append, SRow.den_of_not_mem hno, SRow.den_cons, SRow.den_nil,
        List.map_append, List.sum_append, ← he]
      simp
    · rw [if_neg he, Res.pure_eq, Res.wp_ok, rowPre_succ]
      simp only [SRow.den_append, SRow.den_cons, SRow.den_nil, List.map_append, List.sum_append]
      simp [Ne.symm he]
  · rintro ⟨d, r⟩ ⟨h1, h2⟩
    simp only at h1 h2
    rw [h1, h2]
    have e1 : (A.rowPre i (A.nnz.get i)).den i = a i i := hA.den i i hi hi
    have e2 : ((A.rowPre i (A.nnz.get i)).map (fun p => if p.1 = i then 0 else absv p.2)).sum =
        Spec.radius absv N a i := by
      show ((A.row i).map _).sum = _
      rw [offdiag_sum (hA.good i hi) absv h0]
      unfold Spec.radius
      refine Finset.sum_congr rfl (fun j hj => ?_)
      simp only [Finset.mem_filter, Finset.mem_range] at hj
      rw [hA.den i j hi hj.1]
    rw [e1, e2]

/-- `x` is the smallest of `top` and the numbers `f i`, `lo ≤ i < hi`. -/
def IsMinOf (top : K) (lo hi : Nat) (f : Nat → K) (x : K) : Prop :=
  x ≤ top ∧ (∀ i, lo ≤ i → i < hi → x ≤ f i) ∧ (x = top ∨ ∃ i, lo ≤ i ∧ i < hi ∧ x = f i)

/-- `x` is the largest of `bot` and the numbers `f i`, `lo ≤ i < hi`. -/
def IsMaxOf (bot : K) (lo hi : Nat) (f : Nat → K) (x : K) : Prop :=
  bot ≤ x ∧ (∀ i, lo ≤ i → i < hi → f i ≤ x) ∧ (x = bot ∨ ∃ i, lo ≤ i ∧ i < hi ∧ x = f i)

theorem wp_gershgorin {N : Nat} {A : Ell R} {a : Spec.Mat R} (hA : A.Rep N a) (absv re : R → K)
    (h0 : absv 0 = 0) (top bot : K) {lo hi : Nat} (hlo : lo ≤ hi) (hhi : hi ≤ N) :
    (gershgorin A absv re top bot lo hi).wp E (fun e =>
      IsMinOf top lo hi (fun i => re (a i i) - Spec.radius absv N a i) e.1 ∧
      IsMaxOf bot lo hi (fun i => re (a i i) + Spec.radius absv N a i) e.2) := by
  unfold gershgorin
  refine wp_loopFrom (fun n (e : K × K) =>
      IsMinOf top lo n (fun i => re (a i i) - Spec.radius absv N a i) e.1 ∧
      IsMaxOf bot lo n (fun i => re (a i i) + Spec.radius absv N a i) e.2) hlo ?_ ?_ (fun _ h => h)
  · exact ⟨⟨le_refl _, fun i _ _ => by omega, Or.inl rfl⟩, ⟨le_refl _, fun i _ _ => by omega, Or.inl rfl⟩⟩
  · rintro n hn1 hn2 ⟨mn, mx⟩ ⟨⟨a1, a2, a3⟩, ⟨b1, b2, b3⟩⟩
    rw [Res.wp_bind]
    refine Res.wp_mono (wp_gershRow hA (by omega) absv h0) ?_
    rintro dr rfl
    rw [Res.pure_eq, Res.wp_ok]
    simp only at a1 a2 a3 b1 b2 b3 ⊢
    constructor
    · split
      · next hlt =>
        refine ⟨le_trans (le_of_lt hlt) a1, fun i hi1 hi2 => ?_, Or.inr ⟨n, hn1, by omega, rfl⟩⟩
        by_cases he : i = n
        · subst he; exact le_refl _
        · exact le_trans (le_of_lt hlt) (a2 i hi1 (by omega))
      · next hlt =>
        refine ⟨a1, fun i hi1 hi2 => ?_, ?_⟩
        · by_cases he : i = n
          · subst he; exact not_lt.1 hlt
          · exact a2 i hi1 (by omega)
        · rcases a3 with h | ⟨i, h1, h2, h3⟩
          · exact Or.inl h
          · exact Or.inr ⟨i, h1, by omega, h3⟩
    · split
      · next hlt =>
        refine ⟨le_trans b1 (le_of_lt hlt), fun i hi1 hi2 => ?_, Or.inr ⟨n, hn1, by omega, rfl⟩⟩
        by_cases he : i = n
        · subst he; exact le_refl _
        · exact le_trans (b2 i hi1 (by omega)) (le_of_lt hlt)
      · next hlt =>
        refine ⟨b1, fun i hi1 hi2 => ?_, ?_⟩
        · by_cases he : i = n
          · subst he; exact not_lt.1 hlt
          · exact b2 i hi1 (by omega)
        · rcases b3 with h | ⟨i, h1, h2, h3⟩
          · exact Or.inl h
          · exact Or.inr ⟨i, h1, by omega, h3⟩

theorem wp_accumulateOffdiag {N : Nat} {A : Ell R} {a : Spec.Mat R} (hA : A.Rep N a) (absv : R → K)
    (h0 : absv 0 = 0) (incl : Bool) :
    (accumulateOffdiag A absv incl).wp E (fun out => out.size = N ∧ ∀ i, i < N →
      out.get i = Spec.radius absv N a i + if incl then absv (a i i) else 0) := by
  have hd := hA.dim
  unfold accumulateOffdiag
  refine wp_loop' (fun n (out : Arr K) => out.size = N ∧ ∀ i, i < n →
      out.get i = Spec.radius absv N a i + if incl then absv (a i i) else 0)
    ⟨hd, fun i hi => by omega⟩ ?_ (fun out h => ⟨h.1, fun i hi => h.2 i (by omega)⟩)
  rintro i hi out ⟨hs, ho⟩
  have hiN : i < N := by omega
  have hle := hA.le i hiN
  rw [read_nnz hA.shape (by omega), Res.bind_ok, Res.wp_bind]
  refine wp_loop' (fun n (r : K) =>
    r = ((A.rowPre i n).map (fun p => if p.1 = i ∧ incl = false then 0 else absv p.2)).sum)
    (by simp [rowPre]) ?_ ?_
  · rintro n hn r rfl
    rw [read_idx hA.shape (by omega) (by omega), Res.bind_ok, rowPre_succ]
    by_cases hc : i ≠ A.idx.get (i * A.M + n) ∨ incl = true
    · rw [if_pos hc, read_val hA.shape (by omega) (by omega), Res.bind_ok, Res.pure_eq, Res.wp_ok]
      simp only [List.map_append, List.sum_append, List.map_cons, List.map_nil, List.sum_cons,
        List.sum_nil, add_zero]
      rw [if_neg]
      rintro ⟨h1, h2⟩
      rcases hc with hc | hc
      · exact hc h1.symm
      · rw [h2] at hc; cases hc
    · rw [if_neg hc, Res.pure_eq, Res.wp_ok]
      simp only [List.map_append, List.sum_append, List.map_cons, List.map_nil, List.sum_cons,
        List.sum_nil, add_zero]
      rw [if_pos, add_zero]
      simp only [not_or, not_not, Bool.not_eq_true] at hc
      exact ⟨hc.1.symm, hc.2⟩
  · rintro r rfl
    rw [Arr.wp_write]
    refine ⟨by omega, ?_⟩
    refine ⟨hs, fun i' hi' => ?_⟩
    simp only
    by_cases he : i' = i
    · subst he
      rw [upd_same]
      show ((A.row i').map _).sum = _
      have hg := hA.good i' hiN
      rw [← SRow.sum_den_map hg (fun k v => if k = i' ∧ incl = false then 0 else absv v)
        (fun k => by simp only [h0, ite_self])]
      have hmem : i' ∈ Finset.range N := by simpa using hiN
      rw [← Finset.add_sum_erase _ _ hmem]
      unfold Spec.radius
      rw [Finset.filter_ne', add_comm]
      congr 1
      · refine Finset.sum_congr rfl (fun j hj => ?_)
        have hne := (Finset.mem_erase.1 hj).1
        have hjN := Finset.mem_range.1 (Finset.mem_erase.1 hj).2
        simp only [hne, false_and, if_false, hA.den i' j hiN hjN]
      · rw [hA.den i' i' hiN hiN]
        cases incl <;> simp
    · rw [upd_ne _ _ he]; exact ho i' (by omega)

end Ell

end Bml
