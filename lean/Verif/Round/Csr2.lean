import Verif.Round.Csr

/-!
# CSR sums, products and queries on stored rows, without the laws of arithmetic
-/

set_option linter.unusedSectionVars false

namespace Bml

namespace Csr

variable {R : Type} {E : Prop}

open SRow

variable {N : Nat} {ρ σ τ : Nat → SRow R} {A B C : Csr R}

variable [Zero R] [One R] [Add R] [Mul R] [Neg R] [Sub R]

/-! ## Sums -/

theorem csrSum_fst (α β : R) (LA LB : SRow R) : (Spec.csrSum α β LA LB).map Prod.fst =
    LA.map Prod.fst ++ (fresh LA LB).map Prod.fst := by
  unfold Spec.csrSum fresh
  simp [Function.comp_def]

theorem csrSum_length (α β : R) (LA LB : SRow R) :
    (Spec.csrSum α β LA LB).length = LA.length + (fresh LA LB).length := by
  unfold Spec.csrSum fresh
  simp

theorem good_csrSum {LA LB : SRow R} (hA : Good N LA) (hB : Good N LB) (α β : R) :
    Good N (Spec.csrSum α β LA LB) := by
  have hf : Good N (fresh LA LB) := hB.sublist List.filter_sublist
  refine ⟨?_, fun p hp => ?_⟩
  · rw [csrSum_fst, List.nodup_append]
    refine ⟨hA.1, hf.1, ?_⟩
    rintro c hc c' hc' rfl
    obtain ⟨p, hp, rfl⟩ := List.mem_map.1 hc'
    unfold fresh at hp
    rw [List.mem_filter, decide_eq_true_eq] at hp
    exact hp.2 hc
  · have : p.1 ∈ (Spec.csrSum α β LA LB).map Prod.fst := List.mem_map.2 ⟨p, hp, rfl⟩
    rw [csrSum_fst, List.mem_append] at this
    rcases this with h | h <;> obtain ⟨q, hq, he⟩ := List.mem_map.1 h <;> rw [← he]
    · exact hA.2 q hq
    · exact hf.2 q hq

theorem good_csrSumRow {LA LB : SRow R} (hA : Good N LA) (hB : Good N LB) (big : R → Bool)
    (α β : R) : Good N (Spec.csrSumRow big α β LA LB) :=
  (good_csrSum hA hB α β).sublist List.filter_sublist

theorem wp_scaleInsert_list {r : CsrRow R} {L : SRow R} (h : r.Is L) (α : R) {t : Hash.Table}
    {space : Nat} {ks : Nat → Nat} (ht : Hash.Inv t space 0 ks) (hs : L.length ≤ space) :
    (scaleInsert α r t).wp E (fun st =>
      ({ r with vals := st.1 } : CsrRow R).Is (L.map fun p => (p.1, p.2 * α)) ∧
      Hash.Inv st.2 space L.length r.cols.get) := by
  unfold scaleInsert
  have hl := h.length
  have hle := h.nnz_le
  have hcs := h.cols_size
  have hvs := h.vals_size
  refine wp_loop' (fun n (st : Arr R × Hash.Table) => st.1.size = r.alloc ∧
    (∀ k, st.1.get k = if k < n then r.vals.get k * α else r.vals.get k) ∧
    Hash.Inv st.2 space n r.cols.get) ?_ ?_ ?_
  · exact ⟨hvs, fun k => by simp, ht.congr (fun k hk => by omega)⟩
  · rintro n hn ⟨v, t'⟩ ⟨g1, g2, g3⟩
    simp only at g1 g2 g3
    simp only [Res.wp_bind, Arr.wp_read, Arr.wp_write]
    refine ⟨by omega, by omega, by omega, ?_⟩
    refine Res.wp_mono (g3.insert (by omega) _) ?_
    intro t2 ht2
    rw [Res.wp_pure]
    refine ⟨g1, ?_, ht2.congr ?_⟩
    · intro k
      simp only
      by_cases he : k = n
      · subst he; rw [upd_same, g2, if_neg (by omega), if_pos (by omega)]
      · rw [upd_ne _ _ he, g2]
        by_cases hk : k < n
        · rw [if_pos hk, if_pos (by omega)]
        · rw [if_neg hk, if_neg (by omega)]
    · intro k hk
      by_cases he : k = n
      · subst he; rw [upd_same]
      · rw [upd_ne _ _ he]
  · rintro ⟨v, t'⟩ ⟨g1, g2, g3⟩
    simp only at g1 g2 g3
    refine ⟨⟨⟨hcs, g1, hle, h.1.space⟩, ?_⟩, by rw [← hl]; exact g3⟩
    rw [← h.2]
    simp only [CsrRow.list, List.map_map]
    apply List.map_congr_left
    intro k hk
    have hk : k < r.nnz := by simpa using hk
    simp only [Function.comp]
    rw [g2, if_pos hk]

theorem csrPart_other {α β : R} {done : SRow R} {c : Nat} {w : R} {p : Nat × R} (h : c ≠ p.1) :
    Spec.csrPart α β (done ++ [(c, w)]) p = Spec.csrPart α β done p := by
  unfold Spec.csrPart
  rw [List.find?_append]
  have : [(c, w)].find? (fun q => decide (q.1 = p.1)) = none := by simp [h]
  rw [this, Option.or_none]

theorem csrPart_new {α β : R} {done : SRow R} {c : Nat} {v : R} (h : c ∉ done.map Prod.fst) :
    Spec.csrPart α β done (c, v) = v * α := by
  unfold Spec.csrPart
  have : done.find? (fun q => decide (q.1 = c)) = none := by
    rw [List.find?_eq_none]
    intro q hq he
    exact h (List.mem_map.2 ⟨q, hq, by simpa using he⟩)
  simp only [this]

theorem csrPart_last {α β : R} {done : SRow R} {c : Nat} {v w : R} (h : c ∉ done.map Prod.fst) :
    Spec.csrPart α β (done ++ [(c, w)]) (c, v) = v * α + β * w := by
  unfold Spec.csrPart
  have : done.find? (fun q => decide (q.1 = c)) = none := by
    rw [List.find?_eq_none]
    intro q hq he
    exact h (List.mem_map.2 ⟨q, hq, by simpa using he⟩)
  rw [List.find?_append]
  simp [this]

/-- One entry of the row of `B`. -/
theorem wp_addEntry_list {LA done : SRow R} (hLA : Good N LA) {α β : R} {t : Hash.Table}
    {space : Nat} {ks : Nat → Nat} (ht : Hash.Inv t space LA.length ks)
    (hks : ∀ k, k < LA.length → (LA.map Prod.fst)[k]? = some (ks k))
    {r : CsrRow R} (hr : r.Is (Spec.csrSum α β LA done)) {al : Nat} {stale : Bool}
    (h1 : stale = false → r.alloc = al)
    (h2 : stale = true → al < LA.length + (fresh LA done).length) {c : Nat} {w : R}
    (hc : c ∉ done.map Prod.fst)
    (hfit : c ∈ LA.map Prod.fst → LA.length + (fresh LA done).length ≤ al) :
    (addEntry β t c w (r, stale)).wp E (fun st =>
      st.1.Is (Spec.csrSum α β LA (done ++ [(c, w)])) ∧
      (st.2 = false → st.1.alloc = al) ∧
      (st.2 = true → al < LA.length + (fresh LA (done ++ [(c, w)])).length)) := by
  unfold addEntry
  rw [ht.lookup c, Res.bind_ok]
  have hmem : c ∈ LA.map Prod.fst ↔ ∃ k, k < LA.length ∧ ks k = c := by
    rw [List.mem_iff_getElem?]
    constructor
    · rintro ⟨k, hk⟩
      have hkl : k < LA.length := by
        by_contra hc
        rw [List.getElem?_eq_none (by simpa using hc)] at hk
        simp at hk
      rw [hks k hkl] at hk
      exact ⟨k, hkl, Option.some.inj hk⟩
    · rintro ⟨k, hk, rfl⟩
      exact ⟨k, hks k hk⟩
  cases hl : Hash.lastIdx (fun k => ks k = c) LA.length with
  | none =>
    have hn : c ∉ LA.map Prod.fst := by
      rw [hmem]
      rintro ⟨k, hk, he⟩
      exact Hash.lastIdx_none hl k hk he
    have hfr : fresh LA (done ++ [(c, w)]) = fresh LA done ++ [(c, w)] := by
      unfold fresh
      rw [List.filter_append]
      congr 1
      simp [hn]
    have hsum : Spec.csrSum α β LA (done ++ [(c, w)]) =
        Spec.csrSum α β LA done ++ [(c, β * w)] := by
      unfold Spec.csrSum
      rw [show (done ++ [(c, w)]).filter (fun p => decide (p.1 ∉ LA.map Prod.fst))
        = done.filter (fun p => decide (p.1 ∉ LA.map Prod.fst)) ++ [(c, w)] from hfr,
        List.map_append, ← List.append_assoc]
      congr 2
      apply List.map_congr_left
      intro p hp
      have : c ≠ p.1 := by rintro rfl; exact hn (List.mem_map.2 ⟨p, hp, rfl⟩)
      rw [csrPart_other this]
    simp only
    rw [Res.wp_bind]
    refine Res.wp_mono (CsrRow.wp_setNew hr c (β * w)) ?_
    rintro r' ⟨k1, k2⟩
    have hlen := hr.length
    rw [csrSum_length] at hlen k2
    rw [Res.wp_pure, hsum, hfr]
    refine ⟨k1, ?_, ?_⟩
    · intro h
      simp only [Bool.or_eq_false_iff, decide_eq_false_iff_not] at h
      rw [k2, if_pos (by omega), h1 h.1]
    · intro h
      simp only [Bool.or_eq_true, decide_eq_true_eq] at h
      rw [List.length_append]
      simp only [List.length_cons, List.length_nil]
      rcases h with h | h
      · have := h2 h; omega
      · cases stale with
        | false => have := h1 rfl; omega
        | true => have := h2 rfl; omega
  | some k =>
    obtain ⟨hk, hkc, -⟩ := Hash.lastIdx_some hl
    have hm : c ∈ LA.map Prod.fst := hmem.2 ⟨k, hk, hkc⟩
    have hst : stale = false := by
      cases stale with
      | false => rfl
      | true => have := h2 rfl; have := hfit hm; omega
    subst hst
    simp only [Bool.false_eq_true, if_false]
    have hget := hks k hk
    rw [hkc] at hget
    have hkl : k < LA.length := hk
    have hLAk : LA = LA.take k ++ LA[k] :: LA.drop (k + 1) := by
      rw [List.getElem_cons_drop, List.take_append_drop]
    have hfst : LA[k].1 = c := by
      rw [List.getElem?_map, List.getElem?_eq_getElem hkl] at hget
      simpa using hget
    obtain ⟨L1, v, L2, hL, hL1⟩ : ∃ L1 v L2, LA = L1 ++ (c, v) :: L2 ∧ L1.length = k :=
      ⟨LA.take k, LA[k].2, LA.drop (k + 1), by rw [← hfst]; exact hLAk, by simp; omega⟩
    have hg := hLA
    rw [hL] at hg
    obtain ⟨n1, n2⟩ := hg.not_mem
    have hfr : fresh LA (done ++ [(c, w)]) = fresh LA done := by
      unfold fresh
      rw [List.filter_append]
      simp [hm]
    have hsplit : ∀ D : SRow R, Spec.csrSum α β LA D =
        L1.map (fun p => (p.1, Spec.csrPart α β D p)) ++
        (c, Spec.csrPart α β D (c, v)) ::
        (L2.map (fun p => (p.1, Spec.csrPart α β D p)) ++
          (fresh LA D).map (fun p => (p.1, β * p.2))) := by
      intro D
      unfold Spec.csrSum fresh
      conv_lhs => lhs; rw [hL]
      simp
    have hr' := hr
    rw [hsplit, csrPart_new hc] at hr'
    have hlen : (L1.map (fun p => (p.1, Spec.csrPart α β done p))).length = k := by simp [hL1]
    have hv := hr'.get_at.2
    have hlt := hr'.vals_lt
    rw [hlen] at hv hlt
    simp only [Res.wp_bind, Arr.wp_read, Arr.wp_write, Res.wp_pure]
    refine ⟨hlt, hlt, ?_, fun _ => h1 rfl, fun h => by simp at h⟩
    have hu := CsrRow.is_updVal hr' (r.vals.get k + β * w)
    rw [hlen, hv] at hu
    rw [hsplit, hfr, csrPart_last hc, hv]
    have hcong : ∀ l : SRow R, c ∉ l.map Prod.fst →
        l.map (fun p => (p.1, Spec.csrPart α β (done ++ [(c, w)]) p)) =
        l.map (fun p => (p.1, Spec.csrPart α β done p)) := by
      intro l hn
      apply List.map_congr_left
      intro p hp
      rw [csrPart_other]
      rintro rfl; exact hn (List.mem_map.2 ⟨p, hp, rfl⟩)
    rw [hcong L1 n1, hcong L2 n2]
    exact hu

theorem wp_addRow_list {r brow : CsrRow R} {LA LB : SRow R} (hr : r.Is LA) (hb : brow.Is LB)
    (hA : Good N LA) (hB : Good N LB) (α β : R) {t : Hash.Table}
    {space : Nat} {ks : Nat → Nat} (ht : Hash.Inv t space 0 ks) (hs : LA.length ≤ space)
    (hfit : AddFits r.alloc LA LB) :
    (addRow α β brow r t).wp E (fun st => st.1.Is (Spec.csrSum α β LA LB) ∧
      Hash.Inv st.2 space 0 ks) := by
  unfold addRow
  rw [Res.wp_bind]
  refine Res.wp_mono (wp_scaleInsert_list hr α ht hs) ?_
  rintro ⟨vals, t1⟩ ⟨h1, h2⟩
  simp only at h1 h2 ⊢
  rw [Res.wp_bind, hb.fold]
  refine wp_forList (fun done (st : CsrRow R × Bool) => st.1.Is (Spec.csrSum α β LA done) ∧
      (st.2 = false → st.1.alloc = r.alloc) ∧
      (st.2 = true → r.alloc < LA.length + (fresh LA done).length)) ?_ ?_ ?_
  · refine ⟨?_, fun _ => rfl, fun h => by simp at h⟩
    simpa [Spec.csrSum, Spec.csrPart] using h1
  · rintro pre ⟨c, w⟩ post hL ⟨r', stale⟩ ⟨g1, g2, g3⟩
    have hBg := hB
    rw [hL] at hBg
    refine wp_addEntry_list hA h2 ?_ g1 g2 g3 hBg.not_mem.1 (fun hm => hfit pre (c, w) post hL hm)
    intro k hk
    obtain ⟨L1, L2, e1, e2⟩ := hr.split hk
    rw [e1]
    subst e2
    simp
  · rintro ⟨r', stale⟩ ⟨g1, -, -⟩
    simp only
    rw [Res.wp_bind]
    refine Res.wp_mono (h2.reset ks) ?_
    intro t2 ht2
    exact ⟨g1, ht2⟩

theorem wp_bandwidth_list (hA : A.Stores N ρ) :
    A.bandwidth.wp E (fun m => (∀ i, i < N → (ρ i).length ≤ m) ∧
      (m = 0 ∨ ∃ i, i < N ∧ (ρ i).length = m)) := by
  unfold bandwidth
  rw [hA.dim]
  refine wp_loop' (fun n m => (∀ i, i < n → (ρ i).length ≤ m) ∧
      (m = 0 ∨ ∃ i, i < n ∧ (ρ i).length = m)) ?_ ?_ (fun _ h => h)
  · exact ⟨fun i hi => absurd hi (by omega), Or.inl rfl⟩
  · rintro n hn m ⟨g1, g2⟩
    rw [hA.read hn, Res.bind_ok, Res.wp_pure, (hA.is n hn).length]
    constructor
    · intro i hi
      by_cases he : i = n
      · subst he; split <;> omega
      · have := g1 i (by omega); split <;> omega
    · split
      · exact Or.inr ⟨n, by omega, rfl⟩
      · rcases g2 with h | ⟨i, h1, h2⟩
        · exact Or.inl h
        · exact Or.inr ⟨i, by omega, h2⟩

theorem wp_add_list (hA : A.Stores N ρ) (hB : B.Stores N σ) (α β : R) (big : R → Bool)
    {sc sc' : Sched} (hsc : IsSched 0 N sc) (hsc' : IsSched 0 N sc')
    (junk : Nat → Hash.Slot) (hsz : ∀ i, i < N → (ρ i).length ≤ 174762)
    (hfit : ∀ i, i < N → AddFits (A.data.get i).alloc (ρ i) (σ i)) :
    (A.add B α β big sc sc' junk).wp E (fun A' =>
      A'.Stores N (fun i => Spec.csrSumRow big α β (ρ i) (σ i))) := by
  unfold add
  rw [Res.wp_bind]
  refine Res.wp_mono (wp_bandwidth_list hA) ?_
  rintro m ⟨m1, m2⟩
  have hm : m ≤ 174762 := by
    rcases m2 with rfl | ⟨i, hi, rfl⟩
    · omega
    · exact hsz i hi
  obtain ⟨t, space, e, s1, s2, hinv⟩ := Hash.newTable_ok hm junk (fun _ => 0)
  rw [e, Res.bind_ok, Res.wp_bind]
  refine Res.wp_mono (hA.forRowsS (σ := fun i => Spec.csrSum α β (ρ i) (σ i)) hsc
    (fun t : Hash.Table => Hash.Inv t space 0 (fun _ => 0)) hinv ?_
    (fun i hi => good_csrSum (hA.good i hi) (hB.good i hi) α β)) ?_
  · intro i t _ hi ht
    rw [hB.read hi, Res.bind_ok, Res.wp_bind]
    refine Res.wp_mono (wp_addRow_list (hA.is i hi) (hB.is i hi) (hA.good i hi) (hB.good i hi)
      α β ht ?_ (hfit i hi)) ?_
    · have := m1 i hi; omega
    · rintro ⟨r, t'⟩ ⟨k1, k2⟩
      exact ⟨k1, k2⟩
  · rintro ⟨A1, u⟩ h1
    exact wp_threshold_list h1 big hsc'

/-- In rows with room for `N` entries sums always fit. -/
theorem addFits_wide {al : Nat} {LA LB : SRow R} (hA : Good N LA) (hB : Good N LB)
    (h : N ≤ al) : AddFits al LA LB :=
  addFits_of_card hA hB (fun _ => true) (fun _ _ _ => rfl)
    ((Finset.card_le_card (Finset.filter_subset _ _)).trans (by simpa using h))

/-! ## Products -/

open Scr

theorem wp_accumScaled_list {b : CsrRow R} {LB : SRow R} (hb : b.Is LB) (hlt : ∀ p ∈ LB, p.1 < N)
    {s : Scr R} {l : Nat} {L : SRow R} (h : s.Lists N l L) {mark : Nat} (hm : mark ≠ 0) (a : R) :
    (accumScaled mark a b (s, l)).wp E (fun st =>
      st.1.Lists N st.2 ((Spec.scaled a LB).foldl bump L)) := by
  unfold accumScaled
  rw [hb.fold]
  refine wp_forList (fun done (st : Scr R × Nat) =>
    st.1.Lists N st.2 ((Spec.scaled a done).foldl bump L)) h ?_ (fun _ h => h)
  rintro done p rest hL ⟨s', l'⟩ hH
  refine Res.wp_mono (Ell.wp_accum_list hH hm (hlt p (by rw [hL]; simp)) _) ?_
  rintro ⟨s2, l2⟩ h2
  unfold Spec.scaled at h2 ⊢
  rw [List.map_append, List.foldl_append]
  exact h2

theorem wp_accumProd_list (hA : A.Stores N ρ) (hB : B.Stores N σ) {i : Nat} (hi : i < N)
    {s : Scr R} (hs : s.Clean N) :
    (accumProd A B i (s, 0)).wp E (fun st =>
      st.1.Lists N st.2 (Spec.fullProduct (ρ i) σ)) := by
  unfold accumProd Spec.fullProduct
  rw [hA.read hi, Res.bind_ok, (hA.is i hi).fold]
  refine wp_forList (fun done (st : Scr R × Nat) =>
    st.1.Lists N st.2 (collect (Spec.terms done σ))) hs.lists ?_ (fun _ h => h)
  rintro done p rest hL ⟨s', l'⟩ hH
  have hp : p.1 < N := (hA.good i hi).2 p (by rw [hL]; simp)
  rw [hB.read hp, Res.bind_ok]
  refine Res.wp_mono (wp_accumScaled_list (hB.is _ hp) (hB.good _ hp).2 hH (by omega) p.2) ?_
  rintro ⟨s2, l2⟩ h2
  unfold Spec.terms collect at h2 ⊢
  rw [List.flatMap_append, List.foldl_append]
  simpa using h2

theorem wp_accumSquare_list (hA : A.Stores N ρ) {i : Nat} (hi : i < N)
    {s : Scr R} (hs : s.Clean N) (t : R) :
    (accumSquare A i ((s, 0), t)).wp E (fun st =>
      st.1.1.Lists N st.1.2 (Spec.fullProduct (ρ i) ρ)) := by
  unfold accumSquare Spec.fullProduct
  rw [hA.read hi, Res.bind_ok, (hA.is i hi).fold]
  refine wp_forList (fun done (st : (Scr R × Nat) × R) =>
    st.1.1.Lists N st.1.2 (collect (Spec.terms done ρ))) hs.lists ?_ (fun _ h => h)
  rintro done p rest hL ⟨⟨s', l'⟩, t'⟩ hH
  have hp : p.1 < N := (hA.good i hi).2 p (by rw [hL]; simp)
  simp only at hH ⊢
  rw [hA.read hp, Res.bind_ok, Res.wp_bind]
  refine Res.wp_mono (wp_accumScaled_list (hA.is _ hp) (hA.good _ hp).2 hH (by omega) p.2) ?_
  rintro ⟨s2, l2⟩ h2
  rw [Res.wp_pure]
  unfold Spec.terms collect at h2 ⊢
  rw [List.flatMap_append, List.foldl_append]
  simpa using h2

theorem wp_flushRow_list {i : Nat} {r : CsrRow R} {L0 : SRow R} (hr : r.Is L0) (big : R → Bool)
    {s : Scr R} {l : Nat} {L : SRow R} (hL : s.Lists N l L) (t : R) :
    (flushRow i big r s l t).wp E (fun st =>
      st.1.Is (L.filter fun p => decide (p.1 = i) || big p.2) ∧ st.2.1.Clean N) := by
  obtain ⟨f, h, rfl⟩ := hL
  have hlN := h.len_le
  have hF : ∀ T : List Nat, (SRow.ofCols T f).filter (fun p => decide (p.1 = i) || big p.2)
      = SRow.ofCols (T.filter fun j => decide (j = i) || big (f j)) f := by
    intro T
    unfold SRow.ofCols
    rw [List.filter_map]
    rfl
  unfold flushRow
  rw [Res.wp_bind]
  refine Res.wp_mono (CsrRow.wp_clear hr) ?_
  rintro r0 ⟨hr0, -⟩
  refine wp_loop' (fun jp (st : CsrRow R × Scr R × R) =>
      st.1.Is ((SRow.ofCols (s.cols jp) f).filter (fun p => decide (p.1 = i) || big p.2)) ∧
      st.2.1.x.size = N ∧ st.2.1.ix.size = N ∧ st.2.1.jx = s.jx ∧
      (∀ k, k < N → k ∉ s.cols jp →
        st.2.1.ix.get k = s.ix.get k ∧ st.2.1.x.get k = s.x.get k) ∧
      (∀ k, k < N → k ∈ s.cols jp → st.2.1.ix.get k = 0)) ?_ ?_ ?_
  · refine ⟨by simpa [SRow.ofCols, Scr.cols] using hr0, h.szx, h.szi, rfl,
      fun _ _ _ => ⟨rfl, rfl⟩, by simp [Scr.cols]⟩
  · rintro jp hjp ⟨C', s', t'⟩ ⟨hrow, hx, hi', hj, hun, hcl⟩
    simp only at hrow hx hi' hj hun hcl ⊢
    have hsplit : s.cols l = s.cols jp ++ s.jx.get jp ::
        ((List.range (l - jp - 1)).map (fun q => s.jx.get (jp + 1 + q))) := by
      have : l = jp + (1 + (l - jp - 1)) := by omega
      unfold Scr.cols
      conv_lhs => rw [this, List.range_add, List.map_append, List.map_map, List.range_add,
        List.map_append, List.map_map]
      simp [Function.comp_def, Nat.add_assoc]
    have hmem : s.jx.get jp ∈ s.cols l := by rw [hsplit]; simp
    have hnot : s.jx.get jp ∉ s.cols jp := by
      have := h.nodup
      rw [hsplit, List.nodup_append] at this
      intro hm
      exact this.2.2 _ hm _ (by simp) rfl
    have hlt := h.lt _ hmem
    have hval : s'.x.get (s.jx.get jp) = f (s.jx.get jp) := by
      rw [(hun _ hlt hnot).2, h.val _ hmem]
    rw [Res.wp_bind, Arr.wp_read]
    refine ⟨by rw [hj, h.szj]; omega, ?_⟩
    rw [Res.wp_bind, Arr.wp_read]
    have hjx : s'.jx.get jp = s.jx.get jp := by rw [hj]
    rw [hjx]
    refine ⟨by rw [hx]; exact hlt, ?_⟩
    rw [hval, Res.wp_bind]
    have hstep : ∀ {X : Res (CsrRow R × R)}, X.wp E (fun rt =>
        rt.1.Is ((SRow.ofCols (s.cols (jp + 1)) f).filter
          (fun p => decide (p.1 = i) || big p.2))) → X.wp E (fun rt =>
        ((match rt with
          | (r, t) => do
            let ix ← s'.ix.write (s.jx.get jp) 0
            let x ← s'.x.write (s.jx.get jp) 0
            pure (r, ⟨x, ix, s'.jx⟩, t)) : Res (CsrRow R × Scr R × R)).wp E (fun st =>
          st.1.Is ((SRow.ofCols (s.cols (jp + 1)) f).filter
            (fun p => decide (p.1 = i) || big p.2)) ∧
          st.2.1.x.size = N ∧ st.2.1.ix.size = N ∧ st.2.1.jx = s.jx ∧
          (∀ k, k < N → k ∉ s.cols (jp + 1) →
            st.2.1.ix.get k = s.ix.get k ∧ st.2.1.x.get k = s.x.get k) ∧
          (∀ k, k < N → k ∈ s.cols (jp + 1) → st.2.1.ix.get k = 0))) := by
      intro X hX
      refine Res.wp_mono hX ?_
      rintro ⟨r2, t2⟩ g1
      simp only at g1
      simp only [Res.wp_bind, Arr.wp_write, Res.pure_eq, Res.wp_ok, hx, hi', hlt, true_and]
      refine ⟨g1, hj, ?_, ?_⟩
      · intro k hk hkn
        rw [cols_succ, List.mem_append, List.mem_singleton, not_or] at hkn
        rw [upd_ne _ _ hkn.2, upd_ne _ _ hkn.2]
        exact hun k hk hkn.1
      · intro k hk hkm
        rw [cols_succ, List.mem_append, List.mem_singleton] at hkm
        by_cases he : k = s.jx.get jp
        · subst he; simp
        · rw [upd_ne _ _ he]
          exact hcl k hk (hkm.resolve_right he)
    apply hstep
    rw [hF] at hrow
    simp only [hF]
    rw [cols_succ, List.filter_append, SRow.ofCols_append]
    by_cases h1 : s.jx.get jp = i
    · rw [if_pos h1, Res.wp_bind]
      refine Res.wp_mono (CsrRow.wp_setNew hrow _ _) ?_
      rintro r2 ⟨g, -⟩
      rw [Res.wp_pure]
      simpa [h1, SRow.ofCols] using g
    · rw [if_neg h1]
      by_cases h2 : big (f (s.jx.get jp)) = true
      · rw [if_pos h2, Res.wp_bind]
        refine Res.wp_mono (CsrRow.wp_setNew hrow _ _) ?_
        rintro r2 ⟨g, -⟩
        rw [Res.wp_pure]
        simpa [h1, h2, SRow.ofCols] using g
      · rw [if_neg h2, Res.wp_pure]
        simpa [h1, h2, SRow.ofCols] using hrow
  · rintro ⟨C', s', t'⟩ ⟨hrow, hx, hi', hj, hun, hcl⟩
    simp only at hrow hx hi' hj hun hcl ⊢
    refine ⟨hrow, hx, hi', by rw [hj, h.szj], ?_⟩
    intro k hk
    by_cases hkm : k ∈ s.cols l
    · exact hcl k hk hkm
    · exact (hun k hk hkm).1.trans ((h.mark k hk).2 hkm)

theorem wp_multAB_list (hA : A.Stores N ρ) (hB : B.Stores N σ) (hC : C.Stores N τ)
    (big : R → Bool) {sc : Sched} (hsc : IsSched 0 N sc) :
    (multAB A B C big sc).wp E (fun X =>
      X.Stores N (fun i => Spec.productRow big (ρ i) σ i)) := by
  unfold multAB
  rw [Res.wp_bind]
  refine Res.wp_mono (hC.forRowsS (σ := fun i => Spec.productRow big (ρ i) σ i) hsc
    (fun s : Scr R => s.Clean N) (by rw [hC.dim]; exact Scr.clean_clearScr N) ?_
    (fun i hi => Ell.good_product big i (hA.good i hi).2 (fun k hk => (hB.good k hk).2))) ?_
  · intro i s t hi hs
    rw [Res.wp_bind]
    refine Res.wp_mono (wp_accumProd_list hA hB hi hs) ?_
    rintro ⟨s1, l1⟩ h1
    simp only at h1 ⊢
    rw [Res.wp_bind]
    refine Res.wp_mono (wp_flushRow_list (hC.is i hi) big h1 0) ?_
    rintro ⟨r2, s2, t2⟩ ⟨g1, g2⟩
    exact ⟨g1, g2⟩
  · rintro ⟨X, u⟩ h1
    exact h1

theorem wp_multX2_list (hA : A.Stores N ρ) (hC : C.Stores N τ)
    (big : R → Bool) {sc : Sched} (hsc : IsSched 0 N sc) :
    (multX2 A C big sc).wp E (fun X =>
      X.1.Stores N (fun i => Spec.productRow big (ρ i) ρ i)) := by
  unfold multX2
  refine hC.forRowsS (σ := fun i => Spec.productRow big (ρ i) ρ i) hsc
    (fun s : Scr R => s.Clean N) (by rw [hA.dim]; exact Scr.clean_clearScr N) ?_
    (fun i hi => Ell.good_product big i (hA.good i hi).2 (fun k hk => (hA.good k hk).2))
  intro i s t hi hs
  rw [Res.wp_bind]
  refine Res.wp_mono (wp_accumSquare_list hA hi hs t.1) ?_
  rintro ⟨⟨s1, l1⟩, t1⟩ h1
  simp only at h1 ⊢
  rw [Res.wp_bind]
  refine Res.wp_mono (wp_flushRow_list (hC.is i hi) big h1 t.2) ?_
  rintro ⟨r2, s2, t2⟩ ⟨g1, g2⟩
  exact ⟨g1, g2⟩

theorem wp_multiply_list (hA : A.Stores N ρ) (hB : B.Stores N σ) (hC : C.Stores N τ)
    (α β : R) (big : R → Bool) {sc sc1 sc2 : Sched} (hsc : IsSched 0 N sc)
    (hsc1 : IsSched 0 N sc1) (hsc2 : IsSched 0 N sc2)
    (jv : Nat → Nat → R) (ji : Nat → Nat → Nat) (junk : Nat → Hash.Slot)
    (hsz : ∀ i, i < N → (τ i).length ≤ 174762)
    (hfit : ∀ i, i < N → AddFits (C.data.get i).alloc (τ i) (Spec.productRow big (ρ i) σ i)) :
    (multiply A B C α β big sc sc1 sc2 jv ji junk).wp E (fun X =>
      X.Stores N (fun i => Spec.csrSumRow big β α (τ i) (Spec.productRow big (ρ i) σ i))) := by
  unfold multiply
  rw [Res.wp_bind, hC.dim]
  refine Res.wp_mono (wp_multAB_list hA hB (stores_noinit N C.M jv ji) big hsc) ?_
  intro X hX
  exact wp_add_list hC hX β α big hsc1 hsc2 junk hsz hfit

theorem wp_multiplySelf_list [DecidableEq R] (hA : A.Stores N ρ) (hC : C.Stores N τ)
    (α β : R) (big : R → Bool) {sc sc1 sc2 : Sched} (hsc : IsSched 0 N sc)
    (hsc1 : IsSched 0 N sc1) (hsc2 : IsSched 0 N sc2)
    (jv : Nat → Nat → R) (ji : Nat → Nat → Nat) (junk : Nat → Hash.Slot)
    (hsz : ∀ i, i < N → (τ i).length ≤ 174762)
    (hfit : ∀ i, i < N → AddFits (C.data.get i).alloc (τ i) (Spec.productRow big (ρ i) ρ i)) :
    (multiplySelf A C α β big sc sc1 sc2 jv ji junk).wp E (fun X =>
      X.Stores N (fun i => if α = 1 ∧ β = 0 then Spec.productRow big (ρ i) ρ i
        else Spec.csrSumRow big β α (τ i) (Spec.productRow big (ρ i) ρ i))) := by
  unfold multiplySelf
  split
  · rw [Res.wp_bind]
    refine Res.wp_mono (wp_multX2_list hA hC big hsc) ?_
    rintro ⟨X, t⟩ hX
    exact hX
  · rw [Res.wp_bind, hC.dim]
    refine Res.wp_mono (wp_multX2_list hA (stores_noinit N C.M jv ji) big hsc) ?_
    rintro ⟨X, t⟩ hX
    exact wp_add_list hC hX β α big hsc1 hsc2 junk hsz hfit

/-! ## Queries -/

theorem wp_scatter_list {L : SRow R} (hg : Good N L) {D : Arr R} {addr : Nat → Nat}
    (hlt : ∀ j, j < N → addr j < D.size)
    (hinj : ∀ j j', j < N → j' < N → addr j = addr j' → j = j')
    (h0 : ∀ j, j < N → D.get (addr j) = 0) :
    (forList L D fun p D => D.write (addr p.1) p.2).wp E (fun D' => D'.size = D.size ∧
      (∀ j, j < N → D'.get (addr j) = look L j) ∧
      ∀ k, (∀ j, j < N → addr j ≠ k) → D'.get k = D.get k) := by
  refine wp_forList (fun done (D' : Arr R) => D'.size = D.size ∧
      (∀ j, j < N → D'.get (addr j) = look done j) ∧
      ∀ k, (∀ j, j < N → addr j ≠ k) → D'.get k = D.get k) ?_ ?_ (fun _ h => h)
  · exact ⟨rfl, h0, fun _ _ => rfl⟩
  · rintro pre ⟨c, v⟩ post hL D' ⟨g1, g2, g3⟩
    have hg' := hg
    rw [hL] at hg'
    have hc : c < N := hg.2 (c, v) (by rw [hL]; simp)
    simp only
    rw [Arr.wp_write]
    refine ⟨by rw [g1]; exact hlt c hc, g1, fun j hj => ?_, fun k hk => ?_⟩
    · rw [Ell.look_append_single hg'.not_mem.1]
      simp only
      by_cases he : c = j
      · subst he; rw [upd_same, if_pos rfl]
      · rw [upd_ne _ _ (fun h => he (hinj _ _ hj hc h).symm), if_neg he, g2 j hj]
    · simp only
      rw [upd_ne _ _ (Ne.symm (hk c hc)), g3 k hk]

theorem wp_getRow_list (hA : A.Stores N ρ) {i : Nat} (hi : i < N) :
    (A.getRow i).wp E (fun row => row.size = N ∧ ∀ j, j < N → row.get j = look (ρ i) j) := by
  unfold getRow
  rw [hA.read hi, Res.bind_ok, (hA.is i hi).fold, hA.dim]
  refine Res.wp_mono (wp_scatter_list (hA.good i hi) (addr := id) (fun _ h => h)
    (fun _ _ _ _ h => h) (fun _ _ => rfl)) ?_
  rintro D ⟨h1, h2, -⟩
  exact ⟨h1, h2⟩

theorem wp_getDiagonal_list (hA : A.Stores N ρ) :
    A.getDiagonal.wp E (fun d => d.size = N ∧ ∀ i, i < N → d.get i = look (ρ i) i) := by
  unfold getDiagonal
  rw [hA.dim]
  refine wp_loop' (fun n (d : Arr R) => d.size = N ∧ ∀ i, i < n → d.get i = look (ρ i) i) ?_ ?_
    (fun _ h => h)
  · exact ⟨rfl, fun i hi => by omega⟩
  · rintro n hn d ⟨h1, h2⟩
    rw [hA.read hn, Res.bind_ok, CsrRow.get_look (hA.is n hn), Res.bind_ok, Arr.wp_write]
    refine ⟨by omega, h1, fun i hi => ?_⟩
    simp only
    by_cases he : i = n
    · subst he; simp
    · rw [upd_ne _ _ he]; exact h2 i (by omega)

theorem wp_exportDense_list (hA : A.Stores N ρ) (order : Order) {sc : Sched}
    (hsc : IsSched 0 N sc) :
    (A.exportDense order sc).wp E (fun D => D.size = N * N ∧
      ∀ i j, i < N → j < N → D.get (order.addr i j N) = look (ρ i) j) := by
  unfold exportDense
  rw [hA.dim]
  refine Res.wp_mono (wp_rows hsc (fun D : Arr R => D.size = N * N)
    (fun i D => ∀ j, j < N → D.get (order.addr i j N) = 0)
    (fun i D => ∀ j, j < N → D.get (order.addr i j N) = look (ρ i) j) rfl (fun _ _ _ _ _ => rfl)
    ?_) ?_
  · rintro t i D - hi hs h0
    simp only
    rw [hA.read hi, Res.bind_ok, (hA.is i hi).fold]
    refine Res.wp_mono (wp_scatter_list (hA.good i hi) (addr := fun j => order.addr i j N)
      (fun j hj => by rw [hs]; exact Ell.Order.addr_lt hi hj)
      (fun j j' hj hj' h => (Ell.Order.addr_inj hi hj hi hj' h).2) h0) ?_
    rintro D' ⟨h1, h2, h3⟩
    have hoth : ∀ i' j, i' < N → j < N → i' ≠ i →
        D'.get (order.addr i' j N) = D.get (order.addr i' j N) := by
      intro i' j hi' hj hne
      exact h3 _ (fun k hk h => hne (Ell.Order.addr_inj hi hk hi' hj h).1.symm)
    refine ⟨h1.trans hs, h2, fun i' _ hi' hne => ⟨fun h k hk => ?_, fun h k hk => ?_⟩⟩
    · rw [hoth i' k hi' hk hne]; exact h k hk
    · rw [hoth i' k hi' hk hne]; exact h k hk
  · rintro D ⟨h1, h2⟩
    exact ⟨h1, fun i j hi hj => h2 i (Nat.zero_le _) hi j hj⟩

/-- A trace adds the diagonal elements of the rows it is given. -/
theorem wp_trace_sum (hA : A.Stores N ρ) {sc : Sched} (hsc : ∀ e ∈ sc, e.2 < N) :
    (A.trace sc).wp E (fun t => Spec.SumOf (fun i => look (ρ i) i) (sc.map Prod.snd) t) := by
  unfold trace
  refine wp_forList (fun pre (t : R) =>
    Spec.SumOf (fun i => look (ρ i) i) (pre.map Prod.snd) t) Spec.SumOf.zero ?_ (fun _ h => h)
  rintro pre ⟨th, i⟩ post rfl t ht
  have hi : i < N := hsc (th, i) (by simp)
  simp only
  rw [hA.read hi, Res.bind_ok, CsrRow.get_look (hA.is i hi), Res.bind_ok, Res.wp_pure,
    List.map_append]
  exact Spec.SumOf.add ht (Spec.SumOf.one (x := fun i => look (ρ i) i) i)

/-- A sum of squares adds the squares of the stored entries of the rows it is given. -/
theorem wp_sumSquares_sum (hA : A.Stores N ρ) {sc : Sched} (hsc : ∀ e ∈ sc, e.2 < N) :
    (A.sumSquares sc).wp E (fun t => Spec.SumOf (fun p : Nat × R => p.2 * p.2)
      ((sc.map Prod.snd).flatMap ρ) t) := by
  unfold sumSquares
  refine wp_forList (fun pre (t : R) => Spec.SumOf (fun p : Nat × R => p.2 * p.2)
    ((pre.map Prod.snd).flatMap ρ) t) Spec.SumOf.zero ?_ (fun _ h => h)
  rintro pre ⟨th, i⟩ post rfl t ht
  have hi : i < N := hsc (th, i) (by simp)
  simp only
  rw [hA.read hi, Res.bind_ok, (hA.is i hi).fold]
  refine wp_forList (fun done (t : R) => Spec.SumOf (fun p : Nat × R => p.2 * p.2)
    ((pre.map Prod.snd).flatMap ρ ++ done) t) (by simpa using ht) ?_ ?_
  · rintro done p rest hL t ht
    rw [Res.wp_pure, ← List.append_assoc]
    exact Spec.SumOf.add ht (Spec.SumOf.one (x := fun p : Nat × R => p.2 * p.2) p)
  · intro t ht
    simpa using ht

end Csr

end Bml
