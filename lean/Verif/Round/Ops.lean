import Verif.Round.Rows
import Verif.Ellpack.Construct

/-!
# The ELLPACK operations on stored rows, without the laws of arithmetic
-/

set_option linter.unusedSectionVars false

namespace Bml

/-! ## The rows that the operations store -/

namespace Spec

variable {F : Type} [Zero F] [Add F] [Mul F]

/-- Row `i` of a product before thresholding. -/
def fullProduct (rowA : List (Nat × F)) (rowB : Nat → List (Nat × F)) : List (Nat × F) :=
  SRow.collect (terms rowA rowB)

/-- Row `i` of a product: entries above threshold and the diagonal one. -/
def productRow (big : F → Bool) (rowA : List (Nat × F)) (rowB : Nat → List (Nat × F)) (i : Nat) :
    List (Nat × F) :=
  (fullProduct rowA rowB).filter fun p => decide (p.1 = i) || big p.2

/-- The terms of a row of `α A + β B`: a zero coefficient contributes nothing. -/
def sumTerms [DecidableEq F] (α β : F) (rowA rowB : List (Nat × F)) : List (Nat × F) :=
  (if α = 0 then [] else scaled α rowA) ++ (if β = 0 then [] else scaled β rowB)

/-- A row of `α A + β B`. -/
def sumRow [DecidableEq F] (big : F → Bool) (α β : F) (rowA rowB : List (Nat × F)) :
    List (Nat × F) :=
  (SRow.collect (sumTerms α β rowA rowB)).filter fun p => big p.2

end Spec

namespace Ell

variable {R : Type} {E : Prop}

open Scr SRow

/-- `A` is an `N × N` matrix of width `M` whose stored rows are `ρ`: proper rows, no column
twice. -/
structure Stores (A : Ell R) (N M : Nat) (ρ : Nat → SRow R) : Prop where
  shape : A.Shape
  dim : A.N = N
  width : A.M = M
  row : ∀ i, i < N → A.row i = ρ i
  len : ∀ i, i < N → (ρ i).length ≤ M
  good : ∀ i, i < N → SRow.Good N (ρ i)

theorem Stores.nnz {A : Ell R} {N M : Nat} {ρ : Nat → SRow R} (h : A.Stores N M ρ) {i : Nat}
    (hi : i < N) : A.nnz.get i = (ρ i).length := by
  rw [← h.row i hi, row_length]

theorem Stores.le {A : Ell R} {N M : Nat} {ρ : Nat → SRow R} (h : A.Stores N M ρ) {i : Nat}
    (hi : i < N) : A.nnz.get i ≤ A.M := by
  rw [h.nnz hi, h.width]; exact h.len i hi

theorem Stores.rowSat {A : Ell R} {N M : Nat} {ρ : Nat → SRow R} (h : A.Stores N M ρ) {i : Nat}
    (hi : i < N) : A.RowSat i (fun L => L = ρ i) := ⟨h.le hi, h.row i hi⟩

theorem stores_of_rowSat {A : Ell R} {N M : Nat} {ρ : Nat → SRow R} (hs : A.Shape)
    (hN : A.N = N) (hM : A.M = M) (h : ∀ i, i < N → A.RowSat i (fun L => L = ρ i))
    (hg : ∀ i, i < N → SRow.Good N (ρ i)) : A.Stores N M ρ := by
  refine ⟨hs, hN, hM, fun i hi => (h i hi).2, fun i hi => ?_, hg⟩
  have h1 := (h i hi).1
  have h2 := congrArg List.length (h i hi).2
  rw [row_length] at h2
  omega

theorem Stores.congr {A : Ell R} {N M : Nat} {ρ σ : Nat → SRow R} (h : A.Stores N M ρ)
    (he : ∀ i, i < N → ρ i = σ i) : A.Stores N M σ :=
  ⟨h.shape, h.dim, h.width, fun i hi => (h.row i hi).trans (he i hi),
    fun i hi => by rw [← he i hi]; exact h.len i hi, fun i hi => by rw [← he i hi]; exact h.good i hi⟩

/-- A well-formed matrix stores its rows. -/
theorem WF.stores {A : Ell R} (h : A.WF) : A.Stores A.N A.M A.row :=
  ⟨h.shape, rfl, rfl, fun _ _ => rfl, fun i hi => by rw [row_length]; exact h.nnz_le i hi,
    fun i hi => h.good hi⟩

theorem Stores.wf {A : Ell R} {N M : Nat} {ρ : Nat → SRow R} (h : A.Stores N M ρ) : A.WF := by
  have hd := h.dim
  refine wf_of_good h.shape (fun i hi => h.le (by omega)) (fun i hi => ?_)
  rw [h.row i (by omega), hd]
  exact h.good i (by omega)

/-- Its elements are those of its rows. -/
theorem Stores.represents [Zero R] {A : Ell R} {N M : Nat} {ρ : Nat → SRow R}
    (h : A.Stores N M ρ) : A.Represents N (fun i j => look (ρ i) j) := by
  have hd := h.dim
  refine ⟨h.wf, hd, fun i j hi hj => ?_⟩
  rw [getElement_first h.shape (by omega) (by omega) (h.le hi), h.row i hi]
  rfl

theorem Represents.stores [Zero R] {A : Ell R} {N : Nat} {a : Spec.Mat R}
    (h : A.Represents N a) : A.Stores N A.M A.row ∧ ∀ i j, i < N → j < N → look (A.row i) j = a i j := by
  have hd := h.dim
  have hs := h.wf.stores
  rw [hd] at hs
  refine ⟨hs, fun i j hi hj => ?_⟩
  have h1 := h.get i j hi hj
  rw [hs.represents.get i j hi hj] at h1
  exact Res.ok.inj h1

variable [Zero R] [One R] [Add R] [Mul R]

/-! ## Products -/

theorem terms_lt {N : Nat} {L : SRow R} {ρ : Nat → SRow R} (hlt : ∀ p ∈ L, p.1 < N)
    (hblt : ∀ k, k < N → ∀ p ∈ ρ k, p.1 < N) : ∀ p ∈ Spec.terms L ρ, p.1 < N := by
  intro p hp
  unfold Spec.terms Spec.scaled at hp
  obtain ⟨q, hq, hp⟩ := List.mem_flatMap.1 hp
  obtain ⟨r, hr, rfl⟩ := List.mem_map.1 hp
  exact hblt _ (hlt q hq) r hr

theorem good_product {N : Nat} (big : R → Bool) {L : SRow R} {ρ : Nat → SRow R} (i : Nat)
    (hlt : ∀ p ∈ L, p.1 < N) (hblt : ∀ k, k < N → ∀ p ∈ ρ k, p.1 < N) :
    SRow.Good N (Spec.productRow big L ρ i) :=
  (good_collect (terms_lt hlt hblt)).sublist List.filter_sublist

theorem wp_multABRow_list {N : Nat} {A B : Ell R} {MA MB : Nat} {α β : Nat → SRow R}
    (hA : A.Stores N MA α) (hB : B.Stores N MB β) (big : R → Bool) {i : Nat} (hi : i < N)
    {C : Ell R} (hC : C.Shape) (hCN : C.N = N) {s : Scr R} (hs : s.Clean N) :
    (multABRow A B big i C s).wp (¬ (Spec.fullProduct (α i) β).length ≤ C.M) (fun st =>
      st.1.Shape ∧ Frame C st.1 i ∧
      st.1.RowSat i (fun L => (Spec.fullProduct (α i) β).length ≤ C.M ∧
        L = Spec.productRow big (α i) β i) ∧ st.2.Clean N) := by
  unfold multABRow
  rw [Res.wp_bind]
  refine Res.wp_mono (wp_accumProd_list hA.shape hA.dim hB.shape hB.dim hi (hA.le hi)
    (by rw [hA.row i hi]; exact (hA.good i hi).2) (fun k hk => hB.le hk)
    (fun k hk => hB.row k hk) (fun k hk => (hB.good k hk).2) hs) ?_
  rintro ⟨s1, l⟩ h1
  simp only at h1 ⊢
  rw [hA.row i hi] at h1
  have hlen : (Spec.fullProduct (α i) β).length = l := h1.length
  by_cases hl : l > C.M
  · rw [if_pos hl]
    show ¬ _
    rw [hlen]; omega
  · rw [if_neg hl, Res.wp_bind]
    have hfit : ((Spec.fullProduct (α i) β).filter
        fun p => decide (p.1 = i) || big p.2).length ≤ C.M :=
      (List.length_filter_le _ _).trans (by omega)
    refine Res.wp_mono (wp_finish hC (by omega) h1 (fun j x => decide (j = i) || big x) hfit) ?_
    rintro ⟨C', s', ll⟩ ⟨g1, g2, g3, g4, g5, g6, g7, g8⟩
    simp only at g1 g2 g3 g4 g5 g6 g7 g8 ⊢
    rw [setNnz_eq g4 _ (by omega)]
    simp only [Res.bind_ok, Res.pure_eq, Res.wp_ok]
    exact ⟨g6, g7, ⟨g8.1, by omega, g8.2⟩, g1⟩

/-- The product: the rows are the same for every schedule; it stops exactly when a row of the
product before thresholding is longer than the width. -/
theorem wp_multAB_list {N : Nat} {A B C : Ell R} {MA MB M : Nat} {α β γ : Nat → SRow R}
    (hA : A.Stores N MA α) (hB : B.Stores N MB β) (hC : C.Stores N M γ) (big : R → Bool)
    {sc : Sched} (hsc : IsSched 0 N sc) :
    (multAB A B C big sc).wp (∃ i, i < N ∧ ¬ (Spec.fullProduct (α i) β).length ≤ M) (fun X =>
      (∀ i, i < N → (Spec.fullProduct (α i) β).length ≤ M) ∧
      X.Stores N M (fun i => Spec.productRow big (α i) β i)) := by
  unfold multAB
  rw [Res.wp_bind]
  refine Res.wp_mono (wp_kernel (N := N) (M := M) (Ns := N) hsc (le_refl _)
    (fun i C s => multABRow A B big i C s) (fun _ _ => True)
    (fun i L => (Spec.fullProduct (α i) β).length ≤ M ∧ L = Spec.productRow big (α i) β i) ?_
    hC.shape hC.dim hC.width (fun i hi => ⟨hC.le hi, trivial⟩) ?_) ?_
  · intro i C' s _ hi hS hN hM _ hs
    refine Res.wp_mono' (wp_multABRow_list hA hB big hi hS hN hs) ?_ ?_
    · intro h; exact ⟨i, hi, by rw [← hM]; exact h⟩
    · rintro ⟨X, s'⟩ h
      rw [hM] at h
      exact h
  · intro t; rw [hC.dim]; exact clean_clearScr N
  · rintro ⟨X, scr⟩ ⟨h1, h2, h3, h4⟩
    simp only [Res.pure_eq, Res.wp_ok] at h1 h2 h3 h4 ⊢
    have h5 : ∀ i, i < N → X.RowSat i (fun L => (Spec.fullProduct (α i) β).length ≤ M ∧
        L = Spec.productRow big (α i) β i) := by
      intro i hi
      have := h4 i hi
      rwa [if_pos ⟨Nat.zero_le _, hi⟩] at this
    exact ⟨fun i hi => (h5 i hi).2.1, stores_of_rowSat h1 h2 h3
      (fun i hi => ⟨(h5 i hi).1, (h5 i hi).2.2⟩)
      (fun i hi => good_product big i (hA.good i hi).2 (fun k hk => (hB.good k hk).2))⟩

/-- A row kernel with any additional state. -/
theorem wp_kernelT {T : Type} {lo hi N M Ns : Nat} {sc : Sched}
    (hsc : IsSched lo hi sc) (hhi : hi ≤ N)
    (step : Nat → Ell R → Scr R → T → Res (Ell R × Scr R × T)) (P Q : Nat → SRow R → Prop)
    (hstep : ∀ i C s t, lo ≤ i → i < hi → C.Shape → C.N = N → C.M = M → C.RowSat i (P i) →
      s.Clean Ns → (step i C s t).wp E (fun st => st.1.Shape ∧ Frame C st.1 i ∧
        st.1.RowSat i (Q i) ∧ st.2.1.Clean Ns))
    {C : Ell R} (hC : C.Shape) (hN : C.N = N) (hM : C.M = M)
    (hP : ∀ i, i < N → C.RowSat i (P i)) {scr : Nat → Scr R} (hscr : ∀ t, (scr t).Clean Ns)
    (t0 : T) :
    (forList sc (C, scr, t0) fun ti (st : Ell R × (Nat → Scr R) × T) => do
      let (C, s, t) ← step ti.2 st.1 (st.2.1 ti.1) st.2.2
      pure (C, upd st.2.1 ti.1 s, t)).wp E (fun st =>
        st.1.Shape ∧ st.1.N = N ∧ st.1.M = M ∧
        (∀ i, i < N → if lo ≤ i ∧ i < hi then st.1.RowSat i (Q i) else st.1.RowSat i (P i))) := by
  refine Res.wp_mono (wp_rows hsc
    (G := fun st => st.1.Shape ∧ st.1.N = N ∧ st.1.M = M ∧ (∀ t, (st.2.1 t).Clean Ns) ∧
      ∀ i, i < N → ¬ (lo ≤ i ∧ i < hi) → st.1.RowSat i (P i))
    (P := fun i st => st.1.RowSat i (P i)) (Q := fun i st => st.1.RowSat i (Q i))
    ⟨hC, hN, hM, hscr, fun i hi _ => hP i hi⟩ (fun i _ h2 => hP i (by omega)) ?_) ?_
  · rintro t i ⟨C, scr, tt⟩ h1 h2 ⟨gS, gN, gM, gC, gO⟩ hPi
    simp only [Res.wp_bind]
    refine Res.wp_mono (hstep i C (scr t) tt h1 h2 gS gN gM hPi (gC t)) ?_
    rintro ⟨C', s', t'⟩ ⟨k1, k2, k3, k4⟩
    simp only [Res.pure_eq, Res.wp_ok]
    refine ⟨⟨k1, by rw [k2.N, gN], by rw [k2.M, gM], ?_, ?_⟩, k3, ?_⟩
    · intro t'
      by_cases ht : t' = t
      · subst ht; simpa using k4
      · rw [upd_ne _ _ ht]; exact gC t'
    · intro j hj hnj
      exact k2.rowSat (by rintro rfl; exact hnj ⟨h1, h2⟩) (gO j hj hnj)
    · intro j _ _ hj
      exact ⟨k2.rowSat hj, k2.rowSat hj⟩
  · rintro ⟨C', scr', t'⟩ ⟨⟨gS, gN, gM, _, gO⟩, hQ⟩
    refine ⟨gS, gN, gM, ?_⟩
    intro i hi
    split
    · next h => exact hQ i h.1 h.2
    · next h => exact gO i hi h

theorem wp_rowTrace_any {N M : Nat} {X : Ell R} {ρ : Nat → SRow R} (hX : X.Stores N M ρ)
    {i : Nat} (hi : i < N) (t : R) : (rowTrace X i t).wp E (fun _ => True) := by
  have hd := hX.dim
  unfold rowTrace
  rw [read_nnz hX.shape (by omega), Res.bind_ok]
  refine wp_loop' (fun _ (_ : R) => True) trivial ?_ (fun _ _ => trivial)
  intro k hk t _
  have := hX.le hi
  rw [read_val hX.shape (by omega) (by omega), Res.bind_ok, read_idx hX.shape (by omega) (by omega),
    Res.bind_ok]
  trivial

theorem _root_.Bml.Scr.Holds.len_le {N : Nat} {s : Scr R} {l : Nat} {f : Nat → R}
    (h : s.Holds N l f) : l ≤ N := by
  have h2 : (s.cols l).toFinset ⊆ Finset.range N := by
    intro a ha
    simp only [List.mem_toFinset] at ha
    simpa using h.lt a ha
  have h3 := Finset.card_le_card h2
  rw [List.toFinset_card_of_nodup h.nodup] at h3
  simpa using h3

theorem wp_scrTrace_any {N : Nat} {s : Scr R} {l : Nat} {L : SRow R} (h : s.Lists N l L)
    (i : Nat) (t : R) : (scrTrace s l i t).wp E (fun _ => True) := by
  obtain ⟨f, hf, _⟩ := h
  have hl := hf.len_le
  unfold scrTrace
  refine wp_loop' (fun _ (_ : R) => True) trivial ?_ (fun _ _ => trivial)
  intro k hk t _
  have hm : s.jx.get k ∈ s.cols l := by
    unfold cols
    exact List.mem_map.2 ⟨k, by simpa using hk, rfl⟩
  have := hf.lt _ hm
  rw [Arr.read_ok (by rw [hf.szj]; omega), Res.bind_ok, Arr.read_ok (by rw [hf.szx]; omega),
    Res.bind_ok]
  trivial

theorem wp_multX2_list {N : Nat} {A C : Ell R} {MA M : Nat} {α γ : Nat → SRow R}
    (hA : A.Stores N MA α) (hC : C.Stores N M γ) (big : R → Bool)
    {sc : Sched} (hsc : IsSched 0 N sc)
    (hfit : ∀ i, i < N → (Spec.productRow big (α i) α i).length ≤ M) :
    (multX2 A C big sc).wp E (fun X =>
      X.1.Stores N M (fun i => Spec.productRow big (α i) α i)) := by
  unfold multX2
  rw [Res.wp_bind]
  refine Res.wp_mono (wp_kernelT (N := N) (M := M) (Ns := N) hsc (le_refl _)
    (fun i C s t => multX2Row A big i C s t) (fun _ _ => True)
    (fun i L => L = Spec.productRow big (α i) α i) ?_
    hC.shape hC.dim hC.width (fun i hi => ⟨hC.le hi, trivial⟩) ?_ _) ?_
  · intro i C' s t _ hi hS hN hM _ hs
    unfold multX2Row
    rw [Res.wp_bind]
    refine Res.wp_mono (wp_rowTrace_any hA hi _) ?_
    intro t1 _
    rw [Res.wp_bind]
    refine Res.wp_mono (wp_accumProd_list hA.shape hA.dim hA.shape hA.dim hi (hA.le hi)
      (by rw [hA.row i hi]; exact (hA.good i hi).2) (fun k hk => hA.le hk)
      (fun k hk => hA.row k hk) (fun k hk => (hA.good k hk).2) hs) ?_
    rintro ⟨s1, l⟩ h1
    simp only at h1 ⊢
    rw [hA.row i hi] at h1
    rw [Res.wp_bind]
    refine Res.wp_mono (wp_scrTrace_any h1 i _) ?_
    intro t2 _
    rw [Res.wp_bind]
    refine Res.wp_mono (wp_finish hS (by omega) h1 (fun j x => decide (j = i) || big x)
      (by rw [hM]; exact hfit i hi)) ?_
    rintro ⟨C'', s', ll⟩ ⟨g1, g2, g3, g4, g5, g6, g7, g8⟩
    simp only at g1 g2 g3 g4 g5 g6 g7 g8 ⊢
    rw [if_neg (by omega), setNnz_eq g4 _ (by omega)]
    simp only [Res.bind_ok, Res.pure_eq, Res.wp_ok]
    exact ⟨g6, g7, g8, g1⟩
  · intro t; rw [hA.dim]; exact clean_clearScr N
  · rintro ⟨X, scr, tr⟩ ⟨h1, h2, h3, h4⟩
    simp only [Res.pure_eq, Res.wp_ok] at h1 h2 h3 h4 ⊢
    refine stores_of_rowSat h1 h2 h3 (fun i hi => ?_)
      (fun i hi => good_product big i (hA.good i hi).2 (fun k hk => (hA.good k hk).2))
    have := h4 i hi
    rwa [if_pos ⟨Nat.zero_le _, hi⟩] at this

/-! ## Sums -/

theorem sumTerms_lt [DecidableEq R] {N : Nat} {L L' : SRow R} (x y : R) (hL : ∀ p ∈ L, p.1 < N)
    (hL' : ∀ p ∈ L', p.1 < N) : ∀ p ∈ Spec.sumTerms x y L L', p.1 < N := by
  intro p hp
  unfold Spec.sumTerms Spec.scaled at hp
  rcases List.mem_append.1 hp with h | h
  · split at h
    · simp at h
    · obtain ⟨q, hq, rfl⟩ := List.mem_map.1 h; exact hL q hq
  · split at h
    · simp at h
    · obtain ⟨q, hq, rfl⟩ := List.mem_map.1 h; exact hL' q hq

theorem good_sum [DecidableEq R] {N : Nat} {L L' : SRow R} (big : R → Bool) (x y : R)
    (hL : ∀ p ∈ L, p.1 < N) (hL' : ∀ p ∈ L', p.1 < N) :
    SRow.Good N (Spec.sumRow big x y L L') :=
  (good_collect (sumTerms_lt x y hL hL')).sublist List.filter_sublist

theorem wp_addRow_list [DecidableEq R] {N i : Nat} {A B : Ell R} {s : Scr R} (hA : A.Shape)
    (hAN : A.N = N) (hi : i < N) (hB : B.Shape) (hBN : B.N = N) {L L' : SRow R}
    (ha : A.RowSat i (fun l => l = L)) (hb : B.RowSat i (fun l => l = L'))
    (hL : ∀ p ∈ L, p.1 < N) (hL' : ∀ p ∈ L', p.1 < N) (hs : s.Clean N)
    (x y : R) (big : R → Bool) (hfit : (Spec.sumRow big x y L L').length ≤ A.M) :
    (addRow B x y big i A s).wp E (fun st => st.1.Shape ∧ Frame A st.1 i ∧
      st.1.RowSat i (fun l => l = Spec.sumRow big x y L L') ∧ st.2.Clean N) := by
  unfold addRow
  rw [Res.wp_bind]
  have h1 : (if x ≠ 0 then accumRow A i (i + 1) x (s, 0) else pure (s, 0)).wp E
      (fun st => st.1.Lists N st.2 (collect (if x = 0 then [] else Spec.scaled x L))) := by
    by_cases hx : x = 0
    · simp only [hx, ne_eq, not_true_eq_false, if_false, if_true, Res.wp_pure]
      exact hs.lists
    · simp only [ne_eq, hx, not_false_eq_true, if_true, if_false]
      refine Res.wp_mono (wp_accumRow_list hA (by omega) ha.1
        (by rw [ha.2]; exact hL) hs.lists (by omega) x) ?_
      intro st hst
      rw [ha.2] at hst
      exact hst
  refine Res.wp_mono h1 ?_
  rintro ⟨s1, l1⟩ hh1
  rw [Res.wp_bind]
  have h2 : (if y ≠ 0 then accumRow B i (i + 1) y (s1, l1) else pure (s1, l1)).wp E
      (fun st => st.1.Lists N st.2 (collect (Spec.sumTerms x y L L'))) := by
    unfold collect at hh1 ⊢
    unfold Spec.sumTerms
    rw [List.foldl_append]
    by_cases hy : y = 0
    · simp only [hy, ne_eq, not_true_eq_false, if_false, if_true, Res.wp_pure]
      exact hh1
    · simp only [ne_eq, hy, not_false_eq_true, if_true, if_false]
      refine Res.wp_mono (wp_accumRow_list hB (by omega) hb.1
        (by rw [hb.2]; exact hL') hh1 (by omega) y) ?_
      intro st hst
      rw [hb.2] at hst
      exact hst
  refine Res.wp_mono h2 ?_
  rintro ⟨s2, l2⟩ hh2
  simp only at hh2
  rw [setNnz_eq hA _ (by omega), Res.bind_ok, Res.wp_bind]
  refine Res.wp_mono (wp_finish (hA.withNnz i l2) (by simpa using (by omega : i < A.N)) hh2
    (fun _ v => big v) hfit) ?_
  rintro ⟨C', s', ll⟩ ⟨g1, g2, g3, g4, g5, g6, g7, g8⟩
  simp only at g1 g2 g3 g4 g5 g6 g7 g8 ⊢
  rw [setNnz_eq g4 _ (by rw [g5]; simpa using (by omega : i < A.N))]
  simp only [Res.bind_ok, Res.pure_eq, Res.wp_ok]
  exact ⟨g6, (frame_withNnz A i l2).trans g7, g8, g1⟩

theorem wp_add_list [DecidableEq R] {N : Nat} {A B : Ell R} {M MB : Nat} {α β : Nat → SRow R}
    (hA : A.Stores N M α) (hB : B.Stores N MB β) (x y : R) (big : R → Bool)
    {sc : Sched} (hsc : IsSched 0 N sc)
    (hfit : ∀ i, i < N → (Spec.sumRow big x y (α i) (β i)).length ≤ M) :
    (add A B x y big sc).wp E (fun X =>
      X.Stores N M (fun i => Spec.sumRow big x y (α i) (β i))) := by
  unfold add
  rw [Res.wp_bind]
  refine Res.wp_mono (wp_kernel (N := N) (M := M) (Ns := N) hsc (le_refl _)
    (fun i C s => addRow B x y big i C s) (fun i L => L = α i)
    (fun i L => L = Spec.sumRow big x y (α i) (β i)) ?_
    hA.shape hA.dim hA.width (fun i hi => hA.rowSat hi) ?_) ?_
  · intro i C s _ hi hS hN hM hP hs
    exact wp_addRow_list hS hN hi hB.shape hB.dim hP (hB.rowSat hi) (hA.good i hi).2
      (hB.good i hi).2 hs x y big (by rw [hM]; exact hfit i hi)
  · intro t; rw [hA.dim]; exact clean_clearScr N
  · rintro ⟨X, scr⟩ ⟨h1, h2, h3, h4⟩
    simp only [Res.pure_eq, Res.wp_ok] at h1 h2 h3 h4 ⊢
    refine stores_of_rowSat h1 h2 h3 (fun i hi => ?_)
      (fun i hi => good_sum big x y (hA.good i hi).2 (hB.good i hi).2)
    have := h4 i hi
    rwa [if_pos ⟨Nat.zero_le _, hi⟩] at this

theorem noinit_stores (N M : Nat) (jv : Nat → R) (ji : Nat → Nat) :
    (noinit N M jv ji).Stores N M (fun _ => []) :=
  ⟨⟨rfl, rfl, rfl⟩, rfl, rfl, fun _ _ => rfl, fun _ _ => Nat.zero_le _,
    fun _ _ => ⟨by simp, by simp⟩⟩

theorem wp_multiply_list [DecidableEq R] {N : Nat} {A B C : Ell R} {MA MB M : Nat}
    {α β γ : Nat → SRow R}
    (hA : A.Stores N MA α) (hB : B.Stores N MB β) (hC : C.Stores N M γ) (x y : R)
    (big : R → Bool) {sc sc' : Sched} (hsc : IsSched 0 N sc) (hsc' : IsSched 0 N sc')
    (jv : Nat → R) (ji : Nat → Nat)
    (hfit : ∀ i, i < N → (Spec.sumRow big y x (γ i) (Spec.productRow big (α i) β i)).length ≤ M) :
    (multiply A B C x y big sc sc' jv ji).wp
      (∃ i, i < N ∧ ¬ (Spec.fullProduct (α i) β).length ≤ M) (fun X =>
      (∀ i, i < N → (Spec.fullProduct (α i) β).length ≤ M) ∧
      X.Stores N M (fun i => Spec.sumRow big y x (γ i) (Spec.productRow big (α i) β i))) := by
  unfold multiply
  rw [Res.wp_bind]
  have hn := noinit_stores (R := R) C.N C.M jv ji
  rw [hC.dim, hC.width] at hn ⊢
  refine Res.wp_mono (wp_multAB_list hA hB hn big hsc) ?_
  rintro X ⟨h1, h2⟩
  refine Res.wp_mono (wp_add_list hC h2 y x big hsc' hfit) ?_
  intro Y hY
  exact ⟨h1, hY⟩

theorem wp_multiplySelf_list [DecidableEq R] {N : Nat} {A C : Ell R} {MA M : Nat}
    {α γ : Nat → SRow R} (hA : A.Stores N MA α) (hC : C.Stores N M γ) (x y : R)
    (big : R → Bool) {sc sc' : Sched} (hsc : IsSched 0 N sc) (hsc' : IsSched 0 N sc')
    (jv : Nat → R) (ji : Nat → Nat)
    (hprod : ∀ i, i < N → (Spec.productRow big (α i) α i).length ≤ M)
    (hfit : ¬ (x = 1 ∧ y = 0) → ∀ i, i < N →
      (Spec.sumRow big y x (γ i) (Spec.productRow big (α i) α i)).length ≤ M) :
    (multiplySelf A C x y big sc sc' jv ji).wp E (fun X =>
      X.Stores N M (fun i => if x = 1 ∧ y = 0 then Spec.productRow big (α i) α i
        else Spec.sumRow big y x (γ i) (Spec.productRow big (α i) α i))) := by
  unfold multiplySelf
  by_cases hxy : x = 1 ∧ y = 0
  · simp only [if_pos hxy]
    rw [Res.wp_bind]
    refine Res.wp_mono (wp_multX2_list hA hC big hsc hprod) ?_
    rintro ⟨X, t⟩ h
    exact h
  · simp only [if_neg hxy]
    rw [Res.wp_bind]
    have hn := noinit_stores (R := R) C.N C.M jv ji
    rw [hC.dim, hC.width] at hn ⊢
    refine Res.wp_mono (wp_multX2_list hA hn big hsc hprod) ?_
    rintro ⟨X, t⟩ h
    exact wp_add_list hC h y x big hsc' (hfit hxy)

end Ell

end Bml
