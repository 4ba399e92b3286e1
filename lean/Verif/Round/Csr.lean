import Verif.Round.Error
import Verif.Csr.Ops4
import Verif.Csr.Wide

/-!
# The CSR operations on stored rows, without the laws of arithmetic
-/

set_option linter.unusedSectionVars false

namespace Bml

namespace Spec

variable {F : Type}

/-- `set_element` on a CSR row. -/
def csrSetIn (j : Nat) (x : F) (L : List (Nat × F)) : List (Nat × F) :=
  if HasColumn j L then change j (fun _ => x) L else L ++ [(j, x)]

/-- The new value of an entry of `A` in `α A + β B`: the entry is multiplied from the right. -/
def csrPart [Add F] [Mul F] (α β : F) (rowB : List (Nat × F)) (p : Nat × F) : F :=
  match rowB.find? (fun q => decide (q.1 = p.1)) with
  | some q => p.2 * α + β * q.2
  | none => p.2 * α

/-- A row of `α A + β B` before thresholding: the entries of `A` in their places, then the other
entries of `B`. -/
def csrSum [Add F] [Mul F] (α β : F) (rowA rowB : List (Nat × F)) : List (Nat × F) :=
  rowA.map (fun p => (p.1, csrPart α β rowB p)) ++
    (rowB.filter fun p => decide (p.1 ∉ rowA.map Prod.fst)).map fun p => (p.1, β * p.2)

/-- A row of `α A + β B` in CSR format. -/
def csrSumRow [Add F] [Mul F] (big : F → Bool) (α β : F) (rowA rowB : List (Nat × F)) :
    List (Nat × F) := (csrSum α β rowA rowB).filter fun p => big p.2

theorem change_split {j : Nat} {L1 L2 : List (Nat × F)} (h1 : j ∉ L1.map Prod.fst)
    (h2 : j ∉ L2.map Prod.fst) (w : F) (f : F → F) :
    change j f (L1 ++ (j, w) :: L2) = L1 ++ (j, f w) :: L2 := by
  have key : ∀ L : List (Nat × F), j ∉ L.map Prod.fst → change j f L = L := by
    intro L h
    unfold change
    conv_rhs => rw [← List.map_id L]
    apply List.map_congr_left
    intro p hp
    rw [if_neg]
    · rfl
    · rintro rfl; exact h (List.mem_map.2 ⟨p, hp, rfl⟩)
  have e1 := key L1 h1
  have e2 := key L2 h2
  unfold change at e1 e2 ⊢
  rw [List.map_append, List.map_cons, e1, e2, if_pos rfl]

theorem good_csrSetIn {N : Nat} {L : SRow F} (h : SRow.Good N L) {j : Nat} (hj : j < N) (x : F) :
    SRow.Good N (csrSetIn j x L) := by
  unfold csrSetIn
  split
  · exact good_change h _ _
  · next hc => exact SRow.Good.append_singleton h hj hc

end Spec

namespace SRow

variable {R : Type}

theorem look_split [Zero R] {j : Nat} {L1 L2 : SRow R} (h1 : j ∉ L1.map Prod.fst) (w : R) :
    look (L1 ++ (j, w) :: L2) j = w := by
  induction L1 with
  | nil => simp [look_cons]
  | cons q L ih =>
    simp only [List.map_cons, List.mem_cons, not_or] at h1
    rw [List.cons_append, look_cons, if_neg (Ne.symm h1.1), ih h1.2]

end SRow

namespace CsrRow

variable {R : Type} {E : Prop}

open SRow

theorem get_look [Zero R] {r : CsrRow R} {L : SRow R} (h : r.Is L) (j : Nat) :
    r.get j = .ok (look L j) := by
  unfold get
  rw [if_neg (by omega)]
  simp only [Int.toNat_natCast]
  rcases find_cases h j with ⟨e, hn⟩ | ⟨L1, w, L2, e, rfl, hn, hv⟩
  · rw [e, Res.bind_ok, look_of_not_mem hn]; rfl
  · rw [e, Res.bind_ok]
    simp only
    rw [Arr.read_ok h.vals_lt, hv, look_split hn]

theorem wp_set_list {N : Nat} {r : CsrRow R} {L : SRow R} (h : r.Is L) (hg : Good N L) (j : Nat)
    (v : R) : (r.set j v).wp E (fun r' => r'.Is (Spec.csrSetIn j v L)) := by
  refine Res.wp_mono (wp_set h j v) ?_
  rintro r' (⟨hn, hr⟩ | ⟨L1, w, L2, rfl, hn, hr⟩)
  · unfold Spec.csrSetIn
    rw [if_neg (show ¬ Spec.HasColumn j L from hn)]
    exact hr
  · unfold Spec.csrSetIn
    rw [if_pos (show Spec.HasColumn j _ by unfold Spec.HasColumn; simp),
      Spec.change_split hn hg.not_mem.2]
    exact hr

end CsrRow

namespace Csr

variable {R : Type} {E : Prop}

open SRow

/-- `A` is an `N × N` matrix whose stored rows are `ρ`: proper rows, no column twice. -/
structure Stores (A : Csr R) (N : Nat) (ρ : Nat → SRow R) : Prop where
  dim : A.N = N
  size : A.data.size = N
  is : ∀ i, i < N → (A.data.get i).Is (ρ i)
  good : ∀ i, i < N → SRow.Good N (ρ i)

variable {N : Nat} {ρ σ : Nat → SRow R} {A B C : Csr R}

theorem Stores.read (h : A.Stores N ρ) {i : Nat} (hi : i < N) :
    A.data.read i = .ok (A.data.get i) := Arr.read_ok (by rw [h.size]; exact hi)

theorem Stores.row (h : A.Stores N ρ) {i : Nat} (hi : i < N) : A.row i = ρ i := (h.is i hi).2

theorem Stores.congr (h : A.Stores N ρ) (he : ∀ i, i < N → ρ i = σ i) : A.Stores N σ :=
  ⟨h.dim, h.size, fun i hi => by rw [← he i hi]; exact h.is i hi,
    fun i hi => by rw [← he i hi]; exact h.good i hi⟩

theorem WF.stores (h : A.WF) : A.Stores A.N A.row :=
  ⟨rfl, h.size, fun i hi => ⟨h.row i hi, rfl⟩, fun _ hi => h.good hi⟩

theorem Stores.wf (h : A.Stores N ρ) : A.WF := by
  have hd := h.dim
  refine ⟨by rw [h.size, hd], fun i hi => (h.is i (hd ▸ hi)).1, ?_, ?_⟩
  · intro i k hi hk
    rw [hd] at hi ⊢
    have hg := h.good i hi
    rw [← (h.is i hi).2] at hg
    exact hg.2 _ (CsrRow.mem_list.2 ⟨k, hk, rfl⟩)
  · intro i k k' hi hk hk' he
    rw [hd] at hi
    have hn := (h.good i hi).1
    rw [← (h.is i hi).2] at hn
    unfold CsrRow.list at hn
    rw [List.map_map] at hn
    exact List.inj_on_of_nodup_map hn (by simpa using hk) (by simpa using hk') he

theorem Stores.get [Zero R] (h : A.Stores N ρ) {i : Nat} (hi : i < N) (j : Nat) :
    A.getElement i j = .ok (look (ρ i) j) := by
  unfold getElement
  rw [if_neg (by rw [h.dim]; omega)]
  simp only [Int.toNat_natCast]
  rw [h.read hi, Res.bind_ok, CsrRow.get_look (h.is i hi)]

theorem Stores.represents [Zero R] (h : A.Stores N ρ) :
    A.Represents N (fun i j => look (ρ i) j) :=
  ⟨h.wf, h.dim, fun _ j hi _ => h.get hi j⟩

theorem Represents.stores [Zero R] {a : Spec.Mat R} (h : A.Represents N a) :
    A.Stores N A.row ∧ ∀ i j, i < N → j < N → look (A.row i) j = a i j := by
  have hs := h.wf.stores
  rw [h.dim] at hs
  refine ⟨hs, fun i j hi hj => ?_⟩
  have h1 := h.get i j hi hj
  rw [hs.get hi j] at h1
  exact Res.ok.inj h1

/-! ## Loops over the rows -/

theorem Stores.onRow (h : A.Stores N ρ) {i : Nat} (hi : i < N) {f : CsrRow R → Res (CsrRow R)}
    {L : SRow R} (hf : (f (A.data.get i)).wp E (fun r => r.Is L)) (hg : Good N L) :
    (A.onRow i f).wp E (fun A' => A'.Stores N (upd ρ i L)) := by
  refine Res.wp_mono (wp_onRow (by rw [h.size]; exact hi) hf) ?_
  rintro A' ⟨h1, -, h3, h4, h5⟩
  refine ⟨h1.trans h.dim, h3.trans h.size, fun k hk => ?_, fun k hk => ?_⟩
  · by_cases he : k = i
    · subst he; rw [upd_same]; exact h4
    · rw [upd_ne _ _ he, h5 k he]; exact h.is k hk
  · by_cases he : k = i
    · subst he; rw [upd_same]; exact hg
    · rw [upd_ne _ _ he]; exact h.good k hk

theorem Stores.forRows (h : A.Stores N ρ) {sc : Sched} (hsc : IsSched 0 N sc)
    {f : Nat → CsrRow R → Res (CsrRow R)}
    (hf : ∀ i, i < N → (f i (A.data.get i)).wp E (fun r' => r'.Is (σ i)))
    (hg : ∀ i, i < N → Good N (σ i)) :
    (A.forRows sc f).wp E (fun A' => A'.Stores N σ) := by
  refine Res.wp_mono (wp_forRows hsc h.size (fun i r => r = A.data.get i) (fun i r => r.Is (σ i))
    (fun _ _ => rfl) ?_) ?_
  · rintro i _ hi rfl
    exact hf i hi
  · rintro A' ⟨h1, -, h3, h4⟩
    exact ⟨h1.trans h.dim, h3, h4, hg⟩

theorem Stores.forRowsS {S T : Type} (h : A.Stores N ρ) {sc : Sched} (hsc : IsSched 0 N sc)
    {f : Nat → CsrRow R → S → T → Res (CsrRow R × S × T)} {s : S} {t : T} (I : S → Prop)
    (hI : I s) (hf : ∀ i s t, i < N → I s →
      (f i (A.data.get i) s t).wp E (fun st => st.1.Is (σ i) ∧ I st.2.1))
    (hg : ∀ i, i < N → Good N (σ i)) :
    (A.forRowsS sc s t f).wp E (fun st => st.1.Stores N σ) := by
  unfold Csr.forRowsS
  rw [Res.wp_bind]
  refine Res.wp_mono (wp_rows hsc
    (fun (st : Csr R × (Nat → S) × T) => st.1.N = A.N ∧ st.1.data.size = N ∧ ∀ th, I (st.2.1 th))
    (fun i st => st.1.data.get i = A.data.get i) (fun i st => (st.1.data.get i).Is (σ i))
    ⟨rfl, h.size, fun _ => hI⟩ (fun i _ hi => rfl) ?_) ?_
  · rintro th i ⟨A', ss, t'⟩ - hi ⟨g1, g3, g4⟩ hPi
    simp only at g1 g3 g4 hPi
    simp only
    rw [Arr.read_ok (by rw [g3]; exact hi), Res.bind_ok, Res.wp_bind, hPi]
    refine Res.wp_mono (hf i (ss th) t' hi (g4 th)) ?_
    rintro ⟨r, s', t2⟩ ⟨k1, k2⟩
    simp only at k1 k2
    simp only [Res.wp_bind, Arr.wp_write, Res.wp_pure]
    refine ⟨by rw [g3]; exact hi, ⟨g1, g3, ?_⟩, by simpa using k1, ?_⟩
    · intro th'
      by_cases h : th' = th
      · subst h; simpa using k2
      · rw [upd_ne _ _ h]; exact g4 th'
    · intro j _ _ hne
      rw [upd_ne _ _ hne]
      exact ⟨id, id⟩
  · rintro ⟨A', ss, t'⟩ ⟨⟨g1, g3, g4⟩, hq⟩
    simp only [Res.wp_pure]
    exact ⟨g1.trans h.dim, g3, fun i hi => hq i (Nat.zero_le _) hi, hg⟩

variable [Zero R] [One R] [Add R] [Mul R] [Neg R] [Sub R]

/-! ## Constructors and setters -/

theorem stores_newZero (N M : Nat) : (newZero N M : Csr R).Stores N (fun _ => []) :=
  ⟨rfl, rfl, fun _ _ => CsrRow.zero_is _, fun _ _ => good_nil N⟩

theorem stores_noinit (N M : Nat) (jv : Nat → Nat → R) (ji : Nat → Nat → Nat) :
    (noinit N M jv ji).Stores N (fun _ => []) :=
  ⟨rfl, rfl, fun _ _ => CsrRow.noinit_is _ _ _, fun _ _ => good_nil N⟩

theorem wp_identity_list {N M : Nat} {sc : Sched} (hsc : IsSched 0 N sc) :
    (identity N M sc : Res (Csr R)).wp E (fun A => A.Stores N (fun i => [(i, 1)])) := by
  unfold identity
  refine (stores_newZero N M).forRows hsc (fun i hi => ?_) (fun i hi => ⟨by simp, by simpa using hi⟩)
  have := (CsrRow.rowSpace_ge M).2
  simp only [Res.wp_bind, Arr.wp_write, Res.wp_pure, newZero, CsrRow.zero]
  refine ⟨by omega, by omega, ⟨rfl, rfl, ?_, this⟩, rfl⟩
  simp only; omega

theorem wp_setElement_list (h : A.Stores N ρ) {i j : Nat} (hi : i < N) (hj : j < N) (v : R) :
    (A.setElement i j v).wp E (fun A' => A'.Stores N (upd ρ i (Spec.csrSetIn j v (ρ i)))) :=
  h.onRow hi (CsrRow.wp_set_list (h.is i hi) (h.good i hi) j v)
    (Spec.good_csrSetIn (h.good i hi) hj v)

theorem wp_setRow_list (h : A.Stores N ρ) {i : Nat} (hi : i < N) {row : Arr R}
    (hr : N ≤ row.size) (big : R → Bool) (junk : Nat → Nat) :
    (A.setRow i row big junk).wp E (fun A' =>
      A'.Stores N (upd ρ i (Spec.rowOf big N row.get))) := by
  unfold setRow
  refine h.onRow hi ?_ (Ell.good_rowOf big N row.get)
  rw [h.dim, Res.wp_bind]
  refine Res.wp_mono (wp_bigCols hr big junk) ?_
  rintro ⟨c, l⟩ ⟨g1, g2, g3⟩
  simp only at g1 g2 g3
  simp only
  have hw := (h.is i hi).1
  have hmem : ∀ k, k < l → c.get k < N := by
    intro k hk
    have : c.get k ∈ (List.range l).map c.get := List.mem_map.2 ⟨k, by simpa using hk, rfl⟩
    rw [g3] at this
    simpa using List.mem_of_mem_filter this
  refine Res.wp_mono (CsrRow.wp_setAll (r := { A.data.get i with nnz := 0 })
    ⟨hw.cols_size, hw.vals_size, Nat.zero_le _, hw.space⟩ (by omega)
    (fun k hk => by have := hmem k hk; omega)) ?_
  intro r hr'
  have e : ((List.range l).map fun k => (c.get k, row.get (c.get k))) =
      Spec.rowOf big N row.get := by
    unfold Spec.rowOf
    rw [List.filter_map,
      show (List.range N).filter ((fun p : Nat × R => big p.2) ∘ fun j => (j, row.get j))
        = (List.range N).filter (fun j => big (row.get j)) from rfl, ← g3, List.map_map]
    rfl
  rwa [e] at hr'

theorem wp_setDiagonal_list (h : A.Stores N ρ) {diag : Arr R} (hd : N ≤ diag.size)
    (big : R → Bool) :
    (A.setDiagonal diag big).wp E (fun A' => A'.Stores N (fun i =>
      Spec.csrSetIn i (if big (diag.get i) then diag.get i else 0) (ρ i))) := by
  unfold setDiagonal
  rw [h.dim]
  refine wp_loop' (fun n (A' : Csr R) => A'.Stores N (fun i => if i < n then
    Spec.csrSetIn i (if big (diag.get i) then diag.get i else 0) (ρ i) else ρ i)) ?_ ?_ ?_
  · exact h.congr (fun i _ => by simp)
  · intro n hn A' h2
    rw [Arr.read_ok (by omega), Res.bind_ok]
    have hi2 := h2.is n hn
    have hg2 := h2.good n hn
    rw [if_neg (by omega)] at hi2 hg2
    refine Res.wp_mono (h2.onRow hn (CsrRow.wp_set_list hi2 hg2 n _)
      (Spec.good_csrSetIn hg2 hn _)) ?_
    intro A2 k2
    refine k2.congr (fun i hi => ?_)
    by_cases e : i = n
    · subst e; rw [upd_same, if_pos (show i < i + 1 by omega)]
    · rw [upd_ne _ _ e]
      by_cases e2 : i < n
      · rw [if_pos e2, if_pos (show i < n + 1 by omega)]
      · rw [if_neg e2, if_neg (show ¬ i < n + 1 by omega)]
  · intro A' h2
    exact h2.congr (fun i hi => by rw [if_pos hi])

/-! ## Copies, scaling, thresholding -/

theorem wp_copyNew_list (h : A.Stores N ρ) {sc : Sched} (hsc : IsSched 0 N sc)
    (jd : Nat → CsrRow R) (jv : Nat → Nat → R) (ji : Nat → Nat → Nat) :
    (A.copyNew sc jd jv ji).wp E (fun B => B.Stores N ρ) := by
  unfold copyNew
  rw [Res.wp_bind, h.dim]
  refine Res.wp_mono (wp_rows hsc (fun data : Arr (CsrRow R) => data.size = N) (fun _ _ => True)
    (fun i data => (data.get i).Is (ρ i)) rfl (fun _ _ _ => trivial) ?_) ?_
  · rintro t i data - hi hs -
    rw [h.read hi, Res.bind_ok, Res.wp_bind]
    refine Res.wp_mono (CsrRow.wp_copyNew (h.is i hi) _ _) ?_
    rintro r ⟨hr, -⟩
    rw [Arr.wp_write]
    refine ⟨by rw [hs]; exact hi, hs, by simpa using hr, ?_⟩
    intro j _ _ hne
    simp only [upd_ne _ _ hne]
    exact ⟨id, id⟩
  · rintro data ⟨hs, hd⟩
    rw [Res.wp_pure]
    exact ⟨rfl, hs, fun i hi => hd i (Nat.zero_le _) hi, h.good⟩

theorem wp_copyInto_list (h : A.Stores N ρ) (hB : B.Stores N σ) {sc : Sched}
    (hsc : IsSched 0 N sc) :
    (A.copyInto B sc).wp (∃ i, i < N ∧ (B.data.get i).alloc < (ρ i).length)
      (fun B' => B'.Stores N ρ) := by
  unfold copyInto
  rw [if_pos (by rw [h.dim, hB.dim])]
  refine hB.forRows hsc (fun i hi => ?_) h.good
  rw [h.read hi, Res.bind_ok]
  exact Res.wp_mono' (CsrRow.wp_copyInto (h.is i hi) (hB.is i hi).1)
    (fun h => ⟨i, hi, h⟩) (fun _ h => h.1)

theorem wp_scaleInplace_list (h : A.Stores N ρ) (a : R) {sc : Sched} (hsc : IsSched 0 N sc) :
    (A.scaleInplace a sc).wp E (fun A' => A'.Stores N (fun i => Spec.scaled a (ρ i))) :=
  h.forRows hsc (fun i hi => Res.wp_mono (CsrRow.wp_scale (h.is i hi) a) fun _ h => h.1)
    (fun i hi => (h.good i hi).map_snd _)

theorem wp_threshold_list (h : A.Stores N ρ) (big : R → Bool) {sc : Sched}
    (hsc : IsSched 0 N sc) :
    (A.threshold big sc).wp E (fun A' => A'.Stores N (fun i => (ρ i).filter fun p => big p.2)) :=
  h.forRows hsc (fun i hi => Res.wp_mono (CsrRow.wp_threshold (h.is i hi) big) fun _ h => h.1)
    (fun i hi => (h.good i hi).sublist List.filter_sublist)

theorem wp_addIdentity_list [DecidableEq R] (h : A.Stores N ρ) (β : R) (big : R → Bool)
    {sc sc' : Sched} (hsc : IsSched 0 N sc) (hsc' : IsSched 0 N sc') :
    (A.addIdentity β big sc sc').wp E (fun A' =>
      A'.Stores N (fun i => Spec.identityRow big β i (ρ i))) := by
  unfold addIdentity
  rw [Res.wp_bind]
  refine Res.wp_mono (h.forRows (σ := fun i => Spec.fullIdentity β i (ρ i)) hsc (fun i hi => ?_)
    (fun i hi => ?_)) (fun A1 h1 => wp_threshold_list h1 big hsc')
  · unfold addIdentityRow Spec.fullIdentity
    have hI := h.is i hi
    by_cases hβ : β = 0
    · rcases CsrRow.find_cases hI i with ⟨e, -⟩ | ⟨L1, w, L2, e, -⟩ <;>
      · rw [e, Res.bind_ok, if_neg (by simpa using hβ), if_pos hβ, Res.wp_pure]
        exact hI
    · rw [if_neg hβ]
      rcases CsrRow.find_cases hI i with ⟨e, hn⟩ | ⟨L1, w, L2, e, hL, hn, hv⟩
      · rw [e, Res.bind_ok, if_pos (by simpa using hβ),
          if_neg (show ¬ Spec.HasColumn i (ρ i) from hn)]
        exact Res.wp_mono (CsrRow.wp_setNew hI i β) fun _ h => h.1
      · rw [e, Res.bind_ok, if_pos (by simpa using hβ),
          if_pos (show Spec.HasColumn i (ρ i) by rw [hL]; unfold Spec.HasColumn; simp)]
        have hg := h.good i hi
        rw [hL] at hI hg ⊢
        rw [Spec.change_split hn hg.not_mem.2]
        simp only [Res.wp_bind, Arr.wp_read, Arr.wp_write, Res.wp_pure]
        refine ⟨hI.vals_lt, hI.vals_lt, ?_⟩
        rw [hv]
        exact CsrRow.is_updVal hI _
  · unfold Spec.fullIdentity
    split
    · exact h.good i hi
    · split
      · exact Spec.good_change (h.good i hi) _ _
      · next hc => exact SRow.Good.append_singleton (h.good i hi) hi hc

end Csr

end Bml
