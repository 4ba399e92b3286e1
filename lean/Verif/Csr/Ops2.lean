import Verif.Csr.Ops
import Mathlib.Algebra.Group.PUnit

/-!
# CSR: random matrices, sums
-/

set_option linter.unusedSectionVars false

namespace Bml

namespace CsrRow

variable {R : Type} {E : Prop}

theorem Is.split {r : CsrRow R} {L : SRow R} (h : r.Is L) {k : Nat} (hk : k < L.length) :
    ∃ L1 L2, L = L1 ++ (r.cols.get k, r.vals.get k) :: L2 ∧ L1.length = k := by
  have hl := h.length
  refine ⟨L.take k, L.drop (k + 1), ?_, by simp; omega⟩
  rw [← h.2, ← list_getElem (r := r) (by simp; omega), List.getElem_cons_drop,
    List.take_append_drop]

theorem Is.get_at {r : CsrRow R} {L1 L2 : SRow R} {c : Nat} {v : R}
    (h : r.Is (L1 ++ (c, v) :: L2)) :
    r.cols.get L1.length = c ∧ r.vals.get L1.length = v := by
  have hl := h.length
  have := list_getElem (r := r) (k := L1.length) (by rw [h.2]; simp)
  simp only [h.2] at this
  simpa [eq_comm] using this

theorem Is.cols_lt {r : CsrRow R} {L1 L2 : SRow R} {p : Nat × R}
    (h : r.Is (L1 ++ p :: L2)) : L1.length < r.cols.size := by
  have := h.vals_lt
  rw [h.vals_size] at this
  rw [h.cols_size]; exact this

/-- Column indices of a row as positions. -/
theorem Is.mem_cols {r : CsrRow R} {L : SRow R} (h : r.Is L) {c : Nat} :
    c ∈ L.map Prod.fst ↔ ∃ k, k < L.length ∧ r.cols.get k = c := by
  rw [← h.length, ← h.2]
  constructor
  · intro hm
    obtain ⟨p, hp, rfl⟩ := List.mem_map.1 hm
    obtain ⟨k, hk, rfl⟩ := mem_list.1 hp
    exact ⟨k, hk, rfl⟩
  · rintro ⟨k, hk, rfl⟩
    exact List.mem_map.2 ⟨_, mem_list.2 ⟨k, hk, rfl⟩, rfl⟩

end CsrRow

namespace Csr

variable {R : Type} [CommRing R] {E : Prop}

theorem wp_bandwidth {A : Csr R} {N : Nat} {a : Spec.Mat R} (hA : A.Rep N a) :
    A.bandwidth.wp E (fun m => (∀ i, i < N → (A.row i).length ≤ m) ∧
      (m = 0 ∨ ∃ i, i < N ∧ (A.row i).length = m)) := by
  unfold bandwidth
  rw [hA.dim]
  refine wp_loop' (fun n m => (∀ i, i < n → (A.row i).length ≤ m) ∧
      (m = 0 ∨ ∃ i, i < n ∧ (A.row i).length = m)) ?_ ?_ (fun _ h => h)
  · exact ⟨fun i hi => absurd hi (by omega), Or.inl rfl⟩
  · rintro n hn m ⟨g1, g2⟩
    rw [hA.read hn, Res.bind_ok, Res.wp_pure, (hA.is hn).length]
    constructor
    · intro i hi
      by_cases he : i = n
      · subst he; split <;> omega
      · have := g1 i (by omega); split <;> omega
    · split
      · exact Or.inr ⟨n, by omega, rfl⟩
      · rcases g2 with h | ⟨i, h1, h2⟩
        · exact Or.inl h
        · exact Or.inr ⟨i, by omega, h2⟩

/-! ## Add -/

/-- Entries of `L` whose column does not occur in `LA`. -/
def fresh (LA L : SRow R) : SRow R := L.filter fun p => decide (p.1 ∉ LA.map Prod.fst)

/-- The list that the loop over the row of `B` has produced after the entries `done`. -/
def sumList (α β : R) (LA done : SRow R) : SRow R :=
  LA.map (fun p => (p.1, p.2 * α + β * SRow.den done p.1)) ++
    (fresh LA done).map (fun p => (p.1, β * p.2))

theorem sumList_length (α β : R) (LA done : SRow R) :
    (sumList α β LA done).length = LA.length + (fresh LA done).length := by simp [sumList]

theorem wp_scaleInsert {r : CsrRow R} {L : SRow R} (h : r.Is L) (α : R) {t : Hash.Table}
    {space : Nat} {ks : Nat → Nat} (ht : Hash.Inv t space 0 ks) (hs : L.length ≤ space) :
    (scaleInsert α r t).wp E (fun st =>
      ({ r with vals := st.1 } : CsrRow R).Is (L.map fun p => (p.1, p.2 * α)) ∧
      Hash.Inv st.2 space L.length r.cols.get) := by
  unfold scaleInsert
  have hl := h.length
  have hle := h.nnz_le
  have hcs := h.cols_size
  have hvs := h.vals_size
  refine wp_loop' (fun n (st : Arr R × Hash.Table) => st.1.size = r.alloc ∧
    (∀ k, st.1.get k = if k < n then r.vals.get k * α else r.vals.get k) ∧
    Hash.Inv st.2 space n r.cols.get) ?_ ?_ ?_
  · exact ⟨hvs, fun k => by simp, ht.congr (fun k hk => by omega)⟩
  · rintro n hn ⟨v, t'⟩ ⟨g1, g2, g3⟩
    simp only at g1 g2 g3
    simp only [Res.wp_bind, Arr.wp_read, Arr.wp_write]
    refine ⟨by omega, by omega, by omega, ?_⟩
    refine Res.wp_mono (g3.insert (by omega) _) ?_
    intro t2 ht2
    rw [Res.wp_pure]
    refine ⟨g1, ?_, ht2.congr ?_⟩
    · intro k
      simp only
      by_cases he : k = n
      · subst he; rw [upd_same, g2, if_neg (by omega), if_pos (by omega)]
      · rw [upd_ne _ _ he, g2]
        by_cases hk : k < n
        · rw [if_pos hk, if_pos (by omega)]
        · rw [if_neg hk, if_neg (by omega)]
    · intro k hk
      by_cases he : k = n
      · subst he; rw [upd_same]
      · rw [upd_ne _ _ he]
  · rintro ⟨v, t'⟩ ⟨g1, g2, g3⟩
    simp only at g1 g2 g3
    refine ⟨⟨⟨hcs, g1, hle, h.1.space⟩, ?_⟩, by rw [← hl]; exact g3⟩
    rw [← h.2]
    simp only [CsrRow.list, List.map_map]
    apply List.map_congr_left
    intro k hk
    have hk : k < r.nnz := by simpa using hk
    simp only [Function.comp]
    rw [g2, if_pos hk]

/-- One entry of the row of `B`. -/
theorem wp_addEntry {N : Nat} {LA done : SRow R} (hLA : SRow.Good N LA) {α β : R} {t : Hash.Table}
    {space : Nat} {ks : Nat → Nat} (ht : Hash.Inv t space LA.length ks)
    (hks : ∀ k, k < LA.length → (LA.map Prod.fst)[k]? = some (ks k))
    {r : CsrRow R} (hr : r.Is (sumList α β LA done)) {al : Nat} {stale : Bool}
    (h1 : stale = false → r.alloc = al)
    (h2 : stale = true → al < LA.length + (fresh LA done).length) {c : Nat} {w : R}
    (hfit : c ∈ LA.map Prod.fst → LA.length + (fresh LA done).length ≤ al) :
    (addEntry β t c w (r, stale)).wp E (fun st => st.1.Is (sumList α β LA (done ++ [(c, w)])) ∧
      (st.2 = false → st.1.alloc = al) ∧
      (st.2 = true → al < LA.length + (fresh LA (done ++ [(c, w)])).length)) := by
  unfold addEntry
  rw [ht.lookup c, Res.bind_ok]
  have hmem : c ∈ LA.map Prod.fst ↔ ∃ k, k < LA.length ∧ ks k = c := by
    rw [List.mem_iff_getElem?]
    constructor
    · rintro ⟨k, hk⟩
      have hkl : k < LA.length := by
        by_contra hc
        rw [List.getElem?_eq_none (by simpa using hc)] at hk
        simp at hk
      rw [hks k hkl] at hk
      exact ⟨k, hkl, Option.some.inj hk⟩
    · rintro ⟨k, hk, rfl⟩
      exact ⟨k, hks k hk⟩
  cases hl : Hash.lastIdx (fun k => ks k = c) LA.length with
  | none =>
    have hn : c ∉ LA.map Prod.fst := by
      rw [hmem]
      rintro ⟨k, hk, he⟩
      exact Hash.lastIdx_none hl k hk he
    have hfr : fresh LA (done ++ [(c, w)]) = fresh LA done ++ [(c, w)] := by
      unfold fresh
      rw [List.filter_append]
      congr 1
      simp [hn]
    have hsum : sumList α β LA (done ++ [(c, w)]) = sumList α β LA done ++ [(c, β * w)] := by
      unfold sumList
      rw [hfr, List.map_append, ← List.append_assoc]
      congr 2
      apply List.map_congr_left
      intro p hp
      have : c ≠ p.1 := by rintro rfl; exact hn (List.mem_map.2 ⟨p, hp, rfl⟩)
      simp [this]
    simp only
    rw [Res.wp_bind]
    refine Res.wp_mono (CsrRow.wp_setNew hr c (β * w)) ?_
    rintro r' ⟨k1, k2⟩
    have hlen := hr.length
    rw [sumList_length] at hlen k2
    rw [Res.wp_pure, hsum, hfr]
    refine ⟨k1, ?_, ?_⟩
    · intro h
      simp only [Bool.or_eq_false_iff, decide_eq_false_iff_not] at h
      rw [k2, if_pos (by omega), h1 h.1]
    · intro h
      simp only [Bool.or_eq_true, decide_eq_true_eq] at h
      rw [List.length_append]
      simp only [List.length_cons, List.length_nil]
      rcases h with h | h
      · have := h2 h; omega
      · cases stale with
        | false => have := h1 rfl; omega
        | true => have := h2 rfl; omega
  | some k =>
    obtain ⟨hk, hkc, -⟩ := Hash.lastIdx_some hl
    have hm : c ∈ LA.map Prod.fst := hmem.2 ⟨k, hk, hkc⟩
    have hst : stale = false := by
      cases stale with
      | false => rfl
      | true => have := h2 rfl; have := hfit hm; omega
    subst hst
    simp only [Bool.false_eq_true, if_false]
    -- split LA at k
    have hget := hks k hk
    rw [hkc] at hget
    have hkl : k < LA.length := hk
    have hLAk : LA = LA.take k ++ LA[k] :: LA.drop (k + 1) := by
      rw [List.getElem_cons_drop, List.take_append_drop]
    have hfst : LA[k].1 = c := by
      rw [List.getElem?_map, List.getElem?_eq_getElem hkl] at hget
      simpa using hget
    obtain ⟨L1, v, L2, hL, hL1⟩ : ∃ L1 v L2, LA = L1 ++ (c, v) :: L2 ∧ L1.length = k :=
      ⟨LA.take k, LA[k].2, LA.drop (k + 1), by rw [← hfst]; exact hLAk, by simp; omega⟩
    have hg := hLA
    rw [hL] at hg
    obtain ⟨n1, n2⟩ := hg.not_mem
    have hfr : fresh LA (done ++ [(c, w)]) = fresh LA done := by
      unfold fresh
      rw [List.filter_append]
      simp [hm]
    have hsplit : sumList α β LA done = L1.map (fun p => (p.1, p.2 * α + β * SRow.den done p.1)) ++
        (c, v * α + β * SRow.den done c) ::
        (L2.map (fun p => (p.1, p.2 * α + β * SRow.den done p.1)) ++
          (fresh LA done).map (fun p => (p.1, β * p.2))) := by
      unfold sumList
      conv_lhs => lhs; rw [hL]
      simp
    have hr' := hr
    rw [hsplit] at hr'
    have hlen : (L1.map (fun p => (p.1, p.2 * α + β * SRow.den done p.1))).length = k := by simp [hL1]
    have hv := hr'.get_at.2
    have hlt := hr'.vals_lt
    rw [hlen] at hv hlt
    simp only [Res.wp_bind, Arr.wp_read, Arr.wp_write, Res.wp_pure]
    refine ⟨hlt, hlt, ?_, fun _ => h1 rfl, fun h => by simp at h⟩
    have hu := CsrRow.is_updVal hr' (r.vals.get k + β * w)
    rw [hlen] at hu
    have hsum : sumList α β LA (done ++ [(c, w)]) =
        L1.map (fun p => (p.1, p.2 * α + β * SRow.den done p.1)) ++
        (c, r.vals.get k + β * w) ::
        (L2.map (fun p => (p.1, p.2 * α + β * SRow.den done p.1)) ++
          (fresh LA done).map (fun p => (p.1, β * p.2))) := by
      unfold sumList
      rw [hfr]
      conv_lhs => lhs; rw [hL]
      simp only [List.map_append, List.map_cons, List.append_assoc, List.cons_append]
      have hcong : ∀ l : SRow R, c ∉ l.map Prod.fst →
          l.map (fun p => (p.1, p.2 * α + β * SRow.den (done ++ [(c, w)]) p.1)) =
          l.map (fun p => (p.1, p.2 * α + β * SRow.den done p.1)) := by
        intro l hn
        apply List.map_congr_left
        intro p hp
        have : c ≠ p.1 := by rintro rfl; exact hn (List.mem_map.2 ⟨p, hp, rfl⟩)
        simp [this]
      rw [hcong L1 n1, hcong L2 n2, hv]
      simp only [SRow.den_append, SRow.den_cons, SRow.den_nil, if_true]
      congr 3
      ring
    rw [hsum]
    exact hu

theorem fresh_append (LA l l' : SRow R) : fresh LA (l ++ l') = fresh LA l ++ fresh LA l' :=
  List.filter_append ..

/-- What the sum of two rows is. -/
theorem sumList_good {N : Nat} {LA LB : SRow R} (hA : SRow.Good N LA) (hB : SRow.Good N LB)
    (α β : R) : SRow.Good N (sumList α β LA LB) ∧
      ∀ j, SRow.den (sumList α β LA LB) j = α * SRow.den LA j + β * SRow.den LB j := by
  have hf : SRow.Good N (fresh LA LB) := hB.sublist List.filter_sublist
  have g1 := hA.map_snd (fun p => p.2 * α + β * SRow.den LB p.1)
  have g2 := hf.map_snd (fun p => β * p.2)
  have c1 : (LA.map (fun p => (p.1, p.2 * α + β * SRow.den LB p.1))).map Prod.fst =
      LA.map Prod.fst := by simp [Function.comp_def]
  have c2 : ((fresh LA LB).map (fun p => (p.1, β * p.2))).map Prod.fst =
      (fresh LA LB).map Prod.fst := by simp [Function.comp_def]
  have hdis : ∀ c, c ∈ LA.map Prod.fst → c ∉ (fresh LA LB).map Prod.fst := by
    intro c hc hc'
    obtain ⟨p, hp, rfl⟩ := List.mem_map.1 hc'
    unfold fresh at hp
    rw [List.mem_filter, decide_eq_true_eq] at hp
    exact hp.2 hc
  refine ⟨⟨?_, ?_⟩, ?_⟩
  · unfold sumList
    rw [List.map_append, List.nodup_append]
    refine ⟨g1.1, g2.1, ?_⟩
    rw [c1, c2]
    rintro c hc c' hc' rfl
    exact hdis c hc hc'
  · intro p hp
    unfold sumList at hp
    rcases List.mem_append.1 hp with hp | hp
    · exact g1.2 p hp
    · exact g2.2 p hp
  · intro j
    unfold sumList
    rw [SRow.den_append, SRow.den_map_mul]
    by_cases hm : j ∈ LA.map Prod.fst
    · obtain ⟨p, hp, rfl⟩ := List.mem_map.1 hm
      rw [SRow.den_of_not_mem (hdis _ hm),
        SRow.den_of_mem g1.1 (List.mem_map.2 ⟨p, hp, rfl⟩), SRow.den_of_mem hA.1 hp]
      ring
    · rw [SRow.den_of_not_mem (by rw [c1]; exact hm), SRow.den_of_not_mem hm]
      have : SRow.den (fresh LA LB) j = SRow.den LB j := by
        by_cases hm' : j ∈ LB.map Prod.fst
        · obtain ⟨p, hp, rfl⟩ := List.mem_map.1 hm'
          rw [SRow.den_of_mem hB.1 hp]
          exact SRow.den_of_mem hf.1 (List.mem_filter.2 ⟨hp, by simpa using hm⟩)
        · rw [SRow.den_of_not_mem hm', SRow.den_of_not_mem]
          intro h
          obtain ⟨p, hp, rfl⟩ := List.mem_map.1 h
          exact hm' (List.mem_map.2 ⟨p, (List.mem_filter.1 hp).1, rfl⟩)
      rw [this]; ring

/-- When the row of `B` can be added without access to freed memory: whenever an entry of `B`
meets an entry of `A`, the entries so far have fitted into the row of `A`. -/
def AddFits (al : Nat) (LA LB : SRow R) : Prop :=
  ∀ pre p post, LB = pre ++ p :: post → p.1 ∈ LA.map Prod.fst →
    LA.length + (fresh LA pre).length ≤ al

theorem wp_addRow {N : Nat} {r brow : CsrRow R} {LA LB : SRow R} (hr : r.Is LA) (hb : brow.Is LB)
    (hA : SRow.Good N LA) (α β : R) {t : Hash.Table}
    {space : Nat} {ks : Nat → Nat} (ht : Hash.Inv t space 0 ks) (hs : LA.length ≤ space)
    (hfit : AddFits r.alloc LA LB) :
    (addRow α β brow r t).wp E (fun st => st.1.Is (sumList α β LA LB) ∧
      Hash.Inv st.2 space 0 ks) := by
  unfold addRow
  rw [Res.wp_bind]
  refine Res.wp_mono (wp_scaleInsert hr α ht hs) ?_
  rintro ⟨vals, t1⟩ ⟨h1, h2⟩
  simp only at h1 h2 ⊢
  rw [Res.wp_bind, hb.fold]
  refine wp_forList (fun done (st : CsrRow R × Bool) => st.1.Is (sumList α β LA done) ∧
      (st.2 = false → st.1.alloc = r.alloc) ∧
      (st.2 = true → r.alloc < LA.length + (fresh LA done).length)) ?_ ?_ ?_
  · refine ⟨?_, fun _ => rfl, fun h => by simp at h⟩
    simpa [sumList, fresh] using h1
  · rintro pre ⟨c, w⟩ post hL ⟨r', stale⟩ ⟨g1, g2, g3⟩
    refine wp_addEntry hA h2 ?_ g1 g2 g3 (fun hm => hfit pre (c, w) post hL hm)
    intro k hk
    obtain ⟨L1, L2, e1, e2⟩ := hr.split hk
    rw [e1]
    subst e2
    simp
  · rintro ⟨r', stale⟩ ⟨g1, -, -⟩
    simp only
    rw [Res.wp_bind]
    refine Res.wp_mono (h2.reset ks) ?_
    intro t2 ht2
    exact ⟨g1, ht2⟩

theorem wp_add {A B : Csr R} {N : Nat} {a b : Spec.Mat R} (hA : A.Rep N a) (hB : B.Rep N b)
    (α β : R) (big : R → Bool) {sc sc' : Sched} (hsc : IsSched 0 N sc) (hsc' : IsSched 0 N sc')
    (junk : Nat → Hash.Slot) (hsz : ∀ i, i < N → (A.row i).length ≤ 174762)
    (hfit : ∀ i, i < N → AddFits (A.data.get i).alloc (A.row i) (B.row i)) :
    (A.add B α β big sc sc' junk).wp E (fun A' => A'.M = A.M ∧
      A'.Rep N (Spec.add big α β a b) ∧
      ∀ i, i < N → A'.row i = (sumList α β (A.row i) (B.row i)).filter fun p => big p.2) := by
  unfold add
  rw [Res.wp_bind]
  refine Res.wp_mono (wp_bandwidth hA) ?_
  rintro m ⟨m1, m2⟩
  have hm : m ≤ 174762 := by
    rcases m2 with rfl | ⟨i, hi, rfl⟩
    · omega
    · exact hsz i hi
  obtain ⟨t, space, e, s1, s2, hinv⟩ := Hash.newTable_ok hm junk (fun _ => 0)
  rw [e, Res.bind_ok, Res.wp_bind]
  refine Res.wp_mono (wp_forRowsS (S := Hash.Table) (T := Unit) hsc hA.size
    (fun t => Hash.Inv t space 0 (fun _ => 0))
    (fun i r => r = A.data.get i) (fun i r => r.Is (sumList α β (A.row i) (B.row i)))
    (fun _ => ()) hinv (fun _ _ => rfl) ?_) ?_
  · rintro i _ t _ hi rfl ht
    rw [hB.read hi, Res.bind_ok, Res.wp_bind]
    refine Res.wp_mono (wp_addRow (hA.is hi) (hB.is hi) (hA.good hi) α β ht ?_ (hfit i hi)) ?_
    · have := m1 i hi; omega
    · rintro ⟨r, t'⟩ ⟨k1, k2⟩
      exact ⟨k1, k2, rfl⟩
  · rintro ⟨A1, u⟩ ⟨h1, h2, h3, h4, -⟩
    simp only at h1 h2 h3 h4 ⊢
    have hA1 : A1.Rep N (fun i j => α * a i j + β * b i j) := by
      refine ⟨h1.trans hA.dim, h3, fun i hi => ?_⟩
      obtain ⟨g1, g2⟩ := sumList_good (hA.good hi) (hB.good hi) α β
      refine (h4 i hi).holds g1 (fun j hj => ?_)
      rw [g2, hA.den hi hj, hB.den hi hj]
    refine Res.wp_mono (wp_threshold hA1 big hsc') ?_
    rintro A2 ⟨k1, k2, k3⟩
    refine ⟨k1.trans h2, k2, fun i hi => ?_⟩
    rw [k3 i hi, show A1.row i = _ from (h4 i hi).2]

/-! ## Add of a matrix to itself -/

theorem wp_addSelf {A : Csr R} {N : Nat} {a : Spec.Mat R} (hA : A.Rep N a)
    (α β : R) (big : R → Bool) {sc sc' : Sched} (hsc : IsSched 0 N sc) (hsc' : IsSched 0 N sc')
    (junk : Nat → Hash.Slot) (hsz : ∀ i, i < N → (A.row i).length ≤ 174762) :
    (A.addSelf α β big sc sc' junk).wp E (fun A' => A'.M = A.M ∧
      A'.Rep N (Spec.add big α (β * α) a a)) := by
  unfold addSelf
  rw [Res.wp_bind]
  refine Res.wp_mono (wp_bandwidth hA) ?_
  rintro m ⟨m1, m2⟩
  have hm : m ≤ 174762 := by
    rcases m2 with rfl | ⟨i, hi, rfl⟩
    · omega
    · exact hsz i hi
  obtain ⟨t, space, e, s1, s2, hinv⟩ := Hash.newTable_ok hm junk (fun _ => 0)
  rw [e, Res.bind_ok, Res.wp_bind]
  refine Res.wp_mono (wp_forRowsS (S := Hash.Table) (T := Unit) hsc hA.size
    (fun t => Hash.Inv t space 0 (fun _ => 0))
    (fun i r => r = A.data.get i)
    (fun i r => r.Is ((A.row i).map fun p => (p.1, (α + β * α) * p.2)))
    (fun _ => ()) hinv (fun _ _ => rfl) ?_) ?_
  · rintro i _ t _ hi rfl ht
    rw [Res.wp_bind]
    refine Res.wp_mono (wp_scaleInsert (hA.is hi) α ht (by have := m1 i hi; omega)) ?_
    rintro ⟨vals, t1⟩ ⟨h1, h2⟩
    simp only at h1 h2 ⊢
    generalize hr : A.data.get i = r at h1 h2 ⊢
    have his : r.Is (A.row i) := hr ▸ hA.is hi
    have hl := his.length
    have hle := his.nnz_le
    have hcs := his.cols_size
    have hvs : vals.size = r.alloc := h1.vals_size
    have hv0 : ∀ k, k < r.nnz → vals.get k = r.vals.get k * α := by
      intro k hk
      have e1 := h1.2
      rw [← his.2] at e1
      have := congrArg (fun l => l[k]?) e1
      simpa [CsrRow.list, hk] using this
    rw [Res.wp_bind]
    refine wp_loop' (fun n (st : CsrRow R × Bool) => st.1.nnz = r.nnz ∧ st.1.cols = r.cols ∧
      st.1.alloc = r.alloc ∧ st.1.vals.size = r.alloc ∧ st.2 = false ∧
      ∀ k, k < r.nnz → st.1.vals.get k = if k < n then (α + β * α) * r.vals.get k
        else r.vals.get k * α) ?_ ?_ ?_
    · exact ⟨rfl, rfl, rfl, hvs, rfl, fun k hk => by simp [hv0 k hk]⟩
    · rintro n hn ⟨r', stale⟩ ⟨g1, g2, g3, g4, g5, g6⟩
      simp only at g1 g2 g3 g4 g5 g6 ⊢
      subst g5
      simp only [Bool.false_eq_true, if_false]
      rw [Arr.read_ok (by rw [g2]; omega), Res.bind_ok, Arr.read_ok (by omega), Res.bind_ok]
      unfold addEntry
      rw [h2.lookup, Res.bind_ok, g2]
      have hnd := (hA.good hi).1
      cases hlk : Hash.lastIdx (fun k => r.cols.get k = r.cols.get n) (A.row i).length with
      | none => exact absurd rfl (Hash.lastIdx_none hlk n (by omega))
      | some k =>
        obtain ⟨hk, hkc, -⟩ := Hash.lastIdx_some hlk
        have hkn : k = n := by
          rw [← his.2] at hnd
          unfold CsrRow.list at hnd
          rw [List.map_map] at hnd
          exact List.inj_on_of_nodup_map hnd (by simp; omega) (by simpa using hn) hkc
        subst hkn
        simp only [Bool.false_eq_true, if_false, Res.wp_bind, Arr.wp_read, Arr.wp_write,
          Res.wp_pure]
        refine ⟨by omega, by omega, g1, g2, g3, g4, trivial, ?_⟩
        intro k' hk'
        by_cases he : k' = k
        · subst he
          rw [upd_same, g6 _ hn, if_neg (by omega), if_pos (by omega)]
          ring
        · rw [upd_ne _ _ he, g6 k' hk']
          by_cases hlt : k' < k
          · rw [if_pos hlt, if_pos (by omega)]
          · rw [if_neg hlt, if_neg (by omega)]
    · rintro ⟨r', stale⟩ ⟨g1, g2, g3, g4, g5, g6⟩
      simp only at g1 g2 g3 g4 g5 g6 ⊢
      rw [Res.wp_bind]
      refine Res.wp_mono (h2.reset (fun _ => 0)) ?_
      intro t2 ht2
      refine ⟨⟨⟨by rw [g2, g3]; exact hcs, by rw [g4, g3], by simp only; omega,
        by rw [g3]; exact his.1.space⟩, ?_⟩, ht2, trivial⟩
      rw [← his.2]
      simp only [CsrRow.list, List.map_map, g1, g2]
      apply List.map_congr_left
      intro k hk
      have hk : k < r.nnz := by simpa using hk
      simp only [Function.comp]
      rw [g6 k hk, if_pos hk]
  · rintro ⟨A1, u⟩ ⟨h1, h2, h3, h4, -⟩
    simp only at h1 h2 h3 h4 ⊢
    have hA1 : A1.Rep N (fun i j => (α + β * α) * a i j) :=
      ⟨h1.trans hA.dim, h3, fun i hi => (hA.holds i hi).scale (h4 i hi)⟩
    refine Res.wp_mono (wp_threshold hA1 big hsc') ?_
    rintro A2 ⟨k1, k2, k3⟩
    refine ⟨k1.trans h2, k2.congr (fun i j hi hj => ?_)⟩
    simp only [Spec.add]
    congr 1; ring

/-! ## Adding a multiple of the identity -/

theorem wp_addIdentityRow [DecidableEq R] {r : CsrRow R} {N i : Nat} {g : Nat → R}
    (h : r.Holds N g) (hi : i < N) (β : R) :
    (addIdentityRow β i r).wp E (fun r' => r'.Holds N (fun j => g j + if i = j then β else 0)) := by
  unfold addIdentityRow
  by_cases hβ : β = 0
  · rcases CsrRow.find_cases h.is i with ⟨e, -⟩ | ⟨L1, w, L2, e, -⟩ <;>
    · rw [e, Res.bind_ok, if_neg (by simpa using hβ), Res.wp_pure]
      exact h.congr (fun j hj => by simp [hβ])
  · rcases CsrRow.find_cases h.is i with ⟨e, hn⟩ | ⟨L1, w, L2, e, hL, hn, hv⟩
    · rw [e, Res.bind_ok, if_pos (by simpa using hβ)]
      refine Res.wp_mono (CsrRow.wp_setNew_holds h hi hn β) ?_
      intro r' hr'
      refine hr'.congr (fun j hj => ?_)
      by_cases he : j = i
      · subst he
        rw [← h.2.2 j hj, SRow.den_of_not_mem hn]; simp
      · simp [he, Ne.symm he]
    · rw [e, Res.bind_ok, if_pos (by simpa using hβ)]
      have his := h.is
      have hg := h.2.1
      rw [hL] at his hg
      simp only [Res.wp_bind, Arr.wp_read, Arr.wp_write, Res.wp_pure]
      refine ⟨his.vals_lt, his.vals_lt,
        (CsrRow.is_updVal his _).holds (hg.replace _) (fun j hj => ?_)⟩
      rw [SRow.den_replace hg, ← hL, h.2.2 j hj, hv]
      by_cases he : j = i
      · subst he
        rw [← h.2.2 j hj, hL, SRow.den_at hg]; simp
      · simp [he, Ne.symm he]

theorem wp_addIdentity [DecidableEq R] {A : Csr R} {N : Nat} {a : Spec.Mat R} (hA : A.Rep N a)
    (β : R) (big : R → Bool) {sc sc' : Sched} (hsc : IsSched 0 N sc) (hsc' : IsSched 0 N sc') :
    (A.addIdentity β big sc sc').wp E (fun A' => A'.M = A.M ∧
      A'.Rep N (fun i j => Spec.keep big (a i j + if i = j then β else 0))) := by
  unfold addIdentity
  rw [Res.wp_bind]
  refine Res.wp_mono (wp_forRows_rep (b := fun i j => a i j + if i = j then β else 0) hsc hA
    (fun i r hi hr => wp_addIdentityRow hr hi β)) ?_
  rintro A1 ⟨h1, h2⟩
  refine Res.wp_mono (wp_threshold h2 big hsc') ?_
  rintro A2 ⟨k1, k2, -⟩
  exact ⟨k1.trans h1, k2⟩

/-! ## Thresholding into a new matrix -/

/-- Correct as long as at most one entry per row is kept. -/
theorem wp_thresholdNew {A : Csr R} {N : Nat} {a : Spec.Mat R} (hA : A.Rep N a) (big : R → Bool)
    {sc : Sched} (hsc : IsSched 0 N sc)
    (hone : ∀ i, i < N → ((A.row i).filter fun p => big p.2).length ≤ 1) :
    (A.thresholdNew big sc).wp E (fun B => B.M = A.M ∧
      B.Rep N (fun i j => Spec.keep big (a i j))) := by
  unfold thresholdNew
  rw [hA.dim]
  refine Res.wp_mono (wp_forRows (A := (newZero N A.M : Csr R)) hsc rfl
    (fun _ r => r = CsrRow.zero A.M)
    (fun i r => r.Is ((A.row i).filter fun p => big p.2)) (fun _ _ => rfl) ?_) ?_
  · rintro i _ hi rfl
    simp only
    rw [hA.read hi, Res.bind_ok, (hA.is hi).fold]
    refine wp_forList (fun done (r : CsrRow R) => r.Is (done.filter fun p => big p.2)) ?_ ?_
      (fun _ h => h)
    · exact CsrRow.zero_is A.M
    · rintro pre p post hL r hr
      have hone := hone i hi
      rw [hL, List.filter_append, List.length_append] at hone
      rw [List.filter_append]
      by_cases hb : big p.2 = true
      · have h0 : pre.filter (fun p => big p.2) = [] := by
          rw [← List.length_eq_zero_iff]
          simp only [List.filter_cons, hb, if_true, List.length_cons] at hone
          omega
        rw [h0] at hr ⊢
        have hn := hr.length
        have hsp := hr.1.space
        have hc := hr.cols_size
        have hv := hr.vals_size
        rw [if_pos hb]
        simp only [Res.wp_bind, Arr.wp_write, Res.wp_pure, CsrRow.zero]
        simp only [List.length_nil] at hn
        refine ⟨by omega, by omega, ⟨hc, hv, by simp only; omega, hsp⟩, ?_⟩
        rw [CsrRow.list_eq]
        simp only
        rw [hn, CsrRow.pre_upd]
        simp [hb]
      · rw [if_neg hb, Res.wp_pure]
        simpa [hb] using hr
  · rintro B ⟨h1, h2, h3, h4⟩
    exact ⟨h2, h1, h3, fun i hi => (hA.holds i hi).filter (h4 i hi)⟩

/-! ## Random matrices -/

/-- Invariant of the inner loop of the random constructor. -/
structure RandInv (N M al : Nat) (s : RandSt R) : Prop where
  csize : s.cols.size = al
  vsize : s.vals.size = al
  msize : s.marker.size = N
  psize : s.pos.size = M
  col : s.col < N
  good : SRow.Good N (CsrRow.pre s.cols.get s.vals.get s.nnzRow)
  mark : ∀ c, c < N → (s.marker.get c = true ↔
    c ∈ (CsrRow.pre s.cols.get s.vals.get s.nnzRow).map Prod.fst)
  pos : ∀ k, k < s.nnzRow → s.pos.get k = s.cols.get k

theorem wp_randomStep {N M al n : Nat} (rnd : Nat → Nat) (toR : Nat → R) {s : RandSt R}
    (hM : M ≤ al) (hn : n < M) (hnz : s.nnzRow ≤ n) (h : RandInv N M al s) :
    (randomStep N rnd toR s).wp E (fun s' => RandInv N M al s' ∧ s'.nnzRow ≤ n + 1 ∧
      ∀ c, c < N → s.marker.get c = true ∨ c = s.col → s'.marker.get c = true) := by
  unfold randomStep
  have hN : 0 < N := by have := h.col; omega
  have h1 := h.csize
  have h2 := h.vsize
  have h3 := h.msize
  have h4 := h.psize
  have h5 := h.col
  rw [Arr.read_ok (by omega), Res.bind_ok]
  by_cases hm : s.marker.get s.col = false
  · rw [if_pos hm]
    have hnot : s.col ∉ (CsrRow.pre s.cols.get s.vals.get s.nnzRow).map Prod.fst := by
      rw [← h.mark _ h5, hm]; simp
    simp only [Res.wp_bind, Arr.wp_write, Res.wp_pure]
    refine ⟨by omega, by omega, by omega, by omega, ⟨h1, h2, h3, h4, Nat.mod_lt _ hN, ?_, ?_, ?_⟩,
      by omega, ?_⟩
    · simp only
      rw [CsrRow.pre_upd]
      exact h.good.append_singleton h5 hnot
    · intro c hc
      simp only
      rw [CsrRow.pre_upd]
      simp only [List.map_append, List.mem_append, List.map_cons, List.map_nil,
        List.mem_singleton]
      by_cases he : c = s.col
      · subst he; simp
      · rw [upd_ne _ _ he, h.mark c hc]; simp [he]
    · intro k hk
      simp only at hk ⊢
      by_cases he : k = s.nnzRow
      · subst he; simp
      · rw [upd_ne _ _ he, upd_ne _ _ he, h.pos k (by omega)]
    · intro c hc hcm
      by_cases he : c = s.col
      · subst he; simp
      · rw [upd_ne _ _ he]; exact hcm.resolve_right he
  · rw [if_neg hm]
    simp only [Res.pure_eq, Res.bind_ok, Res.wp_ok]
    refine ⟨⟨h1, h2, h3, h4, Nat.mod_lt _ hN, h.good, h.mark, h.pos⟩, by omega, ?_⟩
    rintro c hc (hcm | rfl)
    · exact hcm
    · simpa using hm

theorem wp_random {N M : Nat} (hMpos : 0 < M) (rnd : Nat → Nat) (toR : Nat → R) :
    (random N M rnd toR).wp E (fun A => A.M = M ∧
      A.Rep N (fun i j => SRow.den (A.row i) j) ∧
      ∀ i, i < N → i ∈ (A.row i).map Prod.fst ∧ (A.row i).length ≤ M) := by
  unfold random
  rw [Res.wp_bind]
  refine wp_loop' (fun n (st : Csr R × Arr Bool × Arr Nat × Nat) => st.1.N = N ∧ st.1.M = M ∧
    st.1.data.size = N ∧ st.2.1.size = N ∧ st.2.2.1.size = M ∧
    (∀ c, c < N → st.2.1.get c = false) ∧
    (∀ i, i < N → n ≤ i → st.1.data.get i = CsrRow.zero M) ∧
    ∀ i, i < n → (st.1.data.get i).WF ∧ SRow.Good N (st.1.row i) ∧
      i ∈ (st.1.row i).map Prod.fst ∧ (st.1.row i).length ≤ M) ?_ ?_ ?_
  · exact ⟨rfl, rfl, rfl, rfl, rfl, fun _ _ => rfl, fun _ _ _ => rfl, fun i hi => by omega⟩
  · rintro i hi ⟨A, mk, ps, calls⟩ ⟨g1, g2, g3, g4, g5, g6, g7, g8⟩
    simp only at g1 g2 g3 g4 g5 g6 g7 g8 ⊢
    obtain ⟨hs1, hs2⟩ := CsrRow.rowSpace_ge M
    rw [Arr.read_ok (by omega), Res.bind_ok, g7 i hi (le_refl _), Res.wp_bind]
    refine wp_loop' (fun n (s : RandSt R) => RandInv N M (CsrRow.rowSpace M) s ∧ s.nnzRow ≤ n ∧
      (n = 0 → s.col = i) ∧ (0 < n → s.marker.get i = true)) ?_ ?_ ?_
    · refine ⟨⟨rfl, rfl, g4, g5, hi, SRow.good_nil N, ?_, fun k hk => ?_⟩, le_refl _,
        fun _ => rfl, fun h => absurd h (by omega)⟩
      · intro c hc
        simp [g6 c hc]
      · simp at hk
    · rintro n hn s ⟨k1, k2, k3, k4⟩
      refine Res.wp_mono (wp_randomStep rnd toR hs1 hn k2 k1) ?_
      rintro s' ⟨l1, l2, l3⟩
      refine ⟨l1, l2, fun h => by omega, fun _ => l3 i hi ?_⟩
      by_cases h0 : n = 0
      · exact Or.inr (k3 h0).symm
      · exact Or.inl (k4 (by omega))
    · rintro s ⟨k1, k2, -, k4⟩
      have hmi := (k1.mark i hi).1 (k4 hMpos)
      rw [Res.wp_bind]
      refine wp_loop' (fun n (mk : Arr Bool) => mk.size = N ∧ ∀ c, c < N →
        (mk.get c = true ↔
          c ∈ ((CsrRow.pre s.cols.get s.vals.get s.nnzRow).drop n).map Prod.fst)) ?_ ?_ ?_
      · exact ⟨k1.msize, by simpa using k1.mark⟩
      · rintro n hn mk' ⟨l1, l2⟩
        have hps := k1.psize
        rw [Arr.read_ok (by omega), Res.bind_ok, k1.pos n hn]
        have hlt : s.cols.get n < N :=
          k1.good.2 (s.cols.get n, s.vals.get n) (List.mem_map.2 ⟨n, by simpa using hn, rfl⟩)
        rw [Arr.write_ok _ (by omega), Res.wp_ok]
        refine ⟨l1, fun c hc => ?_⟩
        have hdrop : (CsrRow.pre s.cols.get s.vals.get s.nnzRow).drop n =
            (s.cols.get n, s.vals.get n) ::
              (CsrRow.pre s.cols.get s.vals.get s.nnzRow).drop (n + 1) := by
          rw [List.drop_eq_getElem_cons (by simpa using hn)]
          simp [CsrRow.pre]
        have hnd : (((CsrRow.pre s.cols.get s.vals.get s.nnzRow).drop n).map Prod.fst).Nodup :=
          k1.good.1.sublist ((List.drop_sublist _ _).map _)
        rw [hdrop] at hnd
        simp only [List.map_cons, List.nodup_cons] at hnd
        simp only
        by_cases he : c = s.cols.get n
        · subst he
          rw [upd_same]
          simpa using hnd.1
        · rw [upd_ne _ _ he, l2 c hc, hdrop]
          simp [he]
      · rintro mk' ⟨l1, l2⟩
        simp only [Res.wp_bind, Arr.wp_write, Res.wp_pure]
        refine ⟨by omega, g1, g2, g3, l1, k1.psize, ?_, ?_, ?_⟩
        · intro c hc
          have := l2 c hc
          rw [List.drop_eq_nil_of_le (by simp)] at this
          simpa using this
        · intro i' hi' hle
          rw [upd_ne _ _ (by omega)]
          exact g7 i' hi' (by omega)
        · intro i' hi'
          unfold Csr.row
          simp only
          by_cases he : i' = i
          · subst he
            rw [upd_same]
            refine ⟨⟨k1.csize, k1.vsize, ?_, hs2⟩, k1.good, hmi, ?_⟩
            · simp only [CsrRow.zero]; omega
            · simp only [CsrRow.list_length]; exact k2
          · rw [upd_ne _ _ he]
            exact g8 i' (by omega)
  · rintro ⟨A, mk, ps, calls⟩ ⟨g1, g2, g3, g4, g5, g6, g7, g8⟩
    simp only at g1 g2 g3 g8 ⊢
    rw [Res.wp_pure]
    exact ⟨g2, ⟨g1, g3, fun i hi => ⟨(g8 i hi).1, (g8 i hi).2.1, fun _ _ => rfl⟩⟩,
      fun i hi => (g8 i hi).2.2⟩

end Csr

end Bml
