import Verif.Csr.Transpose
import Verif.Ellpack.Normalize

/-!
# Correctness of CSR operations (4): general product, norms, spectra, submatrices, introspection
-/

namespace Bml

namespace Csr

variable {R : Type} [CommRing R] {E : Prop}

/-! ## General products -/

omit [CommRing R] in
theorem fresh_sublist (LA LB : SRow R) : (fresh LA LB).Sublist LB := List.filter_sublist

omit [CommRing R] in
/-- No entry of `B` meets an entry of `A`. -/
theorem addFits_of_disjoint {al : Nat} {LA LB : SRow R}
    (h : ∀ c, c ∈ LA.map Prod.fst → c ∉ LB.map Prod.fst) : AddFits al LA LB := by
  rintro pre p post rfl hp
  exact absurd (by simp) (h p.1 hp)

omit [CommRing R] in
/-- The columns of both rows fit into the row of `A`. -/
theorem addFits_of_card {N al : Nat} {LA LB : SRow R} (hA : SRow.Good N LA) (hB : SRow.Good N LB)
    (p : Nat → Bool) (hp : ∀ c, c < N → c ∈ LA.map Prod.fst ∨ c ∈ LB.map Prod.fst → p c = true)
    (h : ((Finset.range N).filter (fun c => p c = true)).card ≤ al) : AddFits al LA LB := by
  rintro pre q post rfl hq
  have hpre : SRow.Good N pre := hB.sublist (by simp)
  have hf : SRow.Good N (fresh LA pre) := hpre.sublist (fresh_sublist _ _)
  refine le_trans ?_ h
  have hnd : (LA.map Prod.fst ++ (fresh LA pre).map Prod.fst).Nodup := by
    rw [List.nodup_append]
    refine ⟨hA.1, hf.1, ?_⟩
    rintro c hc c' hc' rfl
    obtain ⟨r, hr, rfl⟩ := List.mem_map.1 hc'
    unfold fresh at hr
    rw [List.mem_filter, decide_eq_true_eq] at hr
    exact hr.2 hc
  have := SRow.length_le_card (N := N) hnd p (fun c hc => by
    rcases List.mem_append.1 hc with hc | hc
    · obtain ⟨r, hr, rfl⟩ := List.mem_map.1 hc
      exact ⟨hA.2 r hr, hp _ (hA.2 r hr) (Or.inl hc)⟩
    · obtain ⟨r, hr, rfl⟩ := List.mem_map.1 hc
      have hrB : r ∈ pre := (fresh_sublist LA pre).subset hr
      exact ⟨hf.2 r hr, hp _ (hf.2 r hr) (Or.inr (List.mem_map.2 ⟨r, by simp [hrB], rfl⟩))⟩)
  simpa using this

/-- The number of columns that row `i` of `C` and the symbolic product `A B` have together. -/
def unionCols (A B C : Csr R) (N i : Nat) : Nat :=
  ((Finset.range N).filter (fun j => C.Stored i j ∨ ∃ k, k < N ∧ A.Stored i k ∧ B.Stored k j)).card

/-- Row `i` of `C` can take the product: no column in common, or enough space. -/
def ProdFits (A B C : Csr R) (N i : Nat) : Prop :=
  (∀ j, j < N → C.Stored i j → ¬ ∃ k, k < N ∧ A.Stored i k ∧ B.Stored k j) ∨
    unionCols A B C N i ≤ (C.data.get i).alloc

omit [CommRing R] in
theorem addFits_of_prod {N i : Nat} {A B C P : Csr R}
    (hi : i < N) (hAg : SRow.Good N (A.row i)) (hC : SRow.Good N (C.row i))
    (hP : SRow.Good N (P.row i))
    (hs : ∀ j ∈ (P.row i).map Prod.fst, ∃ p ∈ A.row i, j ∈ (B.row p.1).map Prod.fst)
    (h : ProdFits A B C N i) : AddFits (C.data.get i).alloc (C.row i) (P.row i) := by
  have hreach : ∀ j ∈ (P.row i).map Prod.fst, ∃ k, k < N ∧ A.Stored i k ∧ B.Stored k j := by
    intro j hj
    obtain ⟨p, hp, hpj⟩ := hs j hj
    exact ⟨p.1, hAg.2 p hp, stored_iff.2 (List.mem_map.2 ⟨p, hp, rfl⟩), stored_iff.2 hpj⟩
  rcases h with h | h
  · apply addFits_of_disjoint
    intro c hc hc'
    obtain ⟨r, hr, rfl⟩ := List.mem_map.1 hc
    exact h _ (hC.2 r hr) (stored_iff.2 hc) (hreach _ hc')
  · refine addFits_of_card hC hP
      (fun j => decide (C.Stored i j ∨ ∃ k, k < N ∧ A.Stored i k ∧ B.Stored k j)) ?_ ?_
    · intro c _ hc
      rw [decide_eq_true_eq]
      rcases hc with hc | hc
      · exact Or.inl (stored_iff.2 hc)
      · exact Or.inr (hreach c hc)
    · simpa [unionCols] using h

theorem wp_multiply {N : Nat} {A B C : Csr R} {a b c : Spec.Mat R} (hA : A.Rep N a) (hB : B.Rep N b)
    (hC : C.Rep N c) (α β : R) (big : R → Bool) {sc sc1 sc2 : Sched} (hsc : IsSched 0 N sc)
    (hsc1 : IsSched 0 N sc1) (hsc2 : IsSched 0 N sc2) (jv : Nat → Nat → R) (ji : Nat → Nat → Nat)
    (junk : Nat → Hash.Slot) (hsz : ∀ i, i < N → (C.row i).length ≤ 174762)
    (hfit : ∀ i, i < N → ProdFits A B C N i) :
    (multiply A B C α β big sc sc1 sc2 jv ji junk).wp E (fun C' => C'.M = C.M ∧
      C'.Rep N (Spec.add big β α c (Spec.keepOff big (Spec.mul N a b)))) := by
  unfold multiply
  rw [Res.wp_bind]
  have hn := rep_noinit (R := R) C.N C.M jv ji
  rw [hC.dim] at hn
  rw [hC.dim]
  refine Res.wp_mono (wp_multAB hA hB hn big hsc) ?_
  rintro P ⟨-, hP, hs⟩
  refine Res.wp_mono (wp_add hC hP β α big hsc1 hsc2 junk hsz (fun i hi =>
    addFits_of_prod hi (hA.good hi) (hC.good hi) (hP.good hi) (hs i hi) (hfit i hi))) ?_
  rintro C' ⟨h1, h2, -⟩
  exact ⟨h1, h2⟩

theorem wp_multiplySelf [DecidableEq R] {N : Nat} {A C : Csr R} {a c : Spec.Mat R} (hA : A.Rep N a)
    (hC : C.Rep N c) (α β : R) (big : R → Bool) {sc sc1 sc2 : Sched} (hsc : IsSched 0 N sc)
    (hsc1 : IsSched 0 N sc1) (hsc2 : IsSched 0 N sc2) (jv : Nat → Nat → R) (ji : Nat → Nat → Nat)
    (junk : Nat → Hash.Slot) :
    (α = 1 → β = 0 → (multiplySelf A C α β big sc sc1 sc2 jv ji junk).wp E (fun C' => C'.M = C.M ∧
      C'.Rep N (Spec.keepOff big (Spec.mul N a a)))) ∧
    (¬ (α = 1 ∧ β = 0) → (∀ i, i < N → (C.row i).length ≤ 174762) →
      (∀ i, i < N → ProdFits A A C N i) →
      (multiplySelf A C α β big sc sc1 sc2 jv ji junk).wp E (fun C' => C'.M = C.M ∧
        C'.Rep N (Spec.add big β α c (Spec.keepOff big (Spec.mul N a a))))) := by
  unfold multiplySelf
  constructor
  · intro h1 h2
    rw [if_pos ⟨h1, h2⟩, Res.wp_bind]
    refine Res.wp_mono (wp_multX2 hA hC big hsc) ?_
    rintro ⟨P, t⟩ ⟨k1, k2, -, -⟩
    exact ⟨k1, k2⟩
  · intro h hsz hfit
    rw [if_neg h, Res.wp_bind]
    have hn := rep_noinit (R := R) C.N C.M jv ji
    rw [hC.dim] at hn
    rw [hC.dim]
    refine Res.wp_mono (wp_multX2 hA hn big hsc) ?_
    rintro ⟨P, t⟩ ⟨-, hP, hs, -⟩
    simp only at hP hs ⊢
    refine Res.wp_mono (wp_add hC hP β α big hsc1 hsc2 junk hsz (fun i hi =>
      addFits_of_prod hi (hA.good hi) (hC.good hi) (hP.good hi) (hs i hi) (hfit i hi))) ?_
    rintro C' ⟨h1, h2, -⟩
    exact ⟨h1, h2⟩

/-! ## Norms -/

theorem sumSquares_eq {A : Csr R} {N : Nat} {a : Spec.Mat R} (hA : A.Rep N a) {sc : Sched}
    (hsc : IsSched 0 N sc) : A.sumSquares sc = .ok (Spec.total N N fun i j => a i j * a i j) := by
  unfold sumSquares
  rw [wp_sumSched hsc (fun i => ∑ j ∈ Finset.range N, a i j * a i j) 0]
  · rw [zero_add, ← Finset.range_eq_Ico]; rfl
  · intro t i acc _ hi
    simp only
    rw [hA.read hi, Res.bind_ok, (hA.is hi).fold, forList_sum _ (fun p => p.2 * p.2)
      (step := fun p s => pure (s + p.2 * p.2)) _ (fun p _ t => rfl), ← SRow.sum_den_map (hA.good hi) (fun _ v => v * v) (fun _ => by simp)]
    congr 2
    exact Finset.sum_congr rfl (fun k hk => by rw [hA.den hi (by simpa using hk)])

theorem sumSquaresSubmatrix_eq {A : Csr R} {N core : Nat} {a : Spec.Mat R} (hA : A.Rep N a)
    (hc : core ≤ N) {sc : Sched} (hsc : IsSched 0 core sc) :
    A.sumSquaresSubmatrix core sc = .ok (Spec.total core core fun i j => a i j * a i j) := by
  unfold sumSquaresSubmatrix
  rw [wp_sumSched hsc (fun i => ∑ j ∈ Finset.range core, a i j * a i j) 0]
  · rw [zero_add, ← Finset.range_eq_Ico]; rfl
  · intro t i acc _ hi
    have hi : i < N := by omega
    simp only
    rw [hA.read hi, Res.bind_ok, (hA.is hi).fold,
      forList_sum _ (fun p => if p.1 < core then p.2 * p.2 else 0) _ (fun p _ t => by
        split
        · rfl
        · simp),
      ← SRow.sum_den_map (hA.good hi) (fun k v => if k < core then v * v else 0) (fun _ => by simp)]
    congr 2
    rw [← Finset.sum_filter]
    have : (Finset.range N).filter (fun k => k < core) = Finset.range core := by
      ext k; simp only [Finset.mem_filter, Finset.mem_range]; omega
    rw [this]
    exact Finset.sum_congr rfl (fun k hk => by
      rw [hA.den hi (by have := Finset.mem_range.1 hk; omega)])

omit [CommRing R] in
/-- Looking up a column in the table of a row. -/
theorem lookup_row {LA : SRow R} {t : Hash.Table} {space : Nat}
    {ks : Nat → Nat} (ht : Hash.Inv t space LA.length ks)
    (hks : ∀ k, k < LA.length → (LA.map Prod.fst)[k]? = some (ks k)) (c : Nat) :
    (c ∉ LA.map Prod.fst ∧ Hash.lookup t c = .ok none) ∨
    (∃ L1 v L2, LA = L1 ++ (c, v) :: L2 ∧ Hash.lookup t c = .ok (some L1.length)) := by
  rw [ht.lookup c]
  cases hl : Hash.lastIdx (fun k => ks k = c) LA.length with
  | none =>
    left
    refine ⟨?_, rfl⟩
    rw [List.mem_iff_getElem?]
    rintro ⟨k, hk⟩
    have hkl : k < LA.length := by
      by_contra hc
      rw [List.getElem?_eq_none (by simpa using hc)] at hk
      simp at hk
    rw [hks k hkl] at hk
    exact Hash.lastIdx_none hl k hkl (Option.some.inj hk)
  | some k =>
    right
    obtain ⟨hk, hkc, -⟩ := Hash.lastIdx_some hl
    have hget := hks k hk
    rw [hkc] at hget
    have hLAk : LA = LA.take k ++ LA[k] :: LA.drop (k + 1) := by
      rw [List.getElem_cons_drop, List.take_append_drop]
    have hfst : LA[k].1 = c := by
      rw [List.getElem?_map, List.getElem?_eq_getElem hk] at hget
      simpa using hget
    refine ⟨LA.take k, LA[k].2, LA.drop (k + 1), by rw [← hfst]; exact hLAk, ?_⟩
    simp; omega

theorem wp_loadRow {r : CsrRow R} {LA : SRow R} (hr : r.Is LA) (α : R) {cvals : Arr R}
    (hs : LA.length ≤ cvals.size) (junk : Nat → Hash.Slot) (hl : LA.length ≤ 174762) :
    (loadRow α r cvals junk).wp E (fun st => st.1.size = cvals.size ∧
      (∀ k (hk : k < LA.length), st.1.get k = α * (LA[k]).2) ∧
      ∃ space ks, Hash.Inv st.2 space LA.length ks ∧
        ∀ k, k < LA.length → (LA.map Prod.fst)[k]? = some (ks k)) := by
  have hn := hr.length
  have hle := hr.nnz_le
  have hcs := hr.cols_size
  have hvs := hr.vals_size
  unfold loadRow
  obtain ⟨t, space, e, s1, s2, hinv⟩ := Hash.newTable_ok (tsize := r.nnz) (by omega) junk
    (fun k => r.cols.get k)
  rw [e, Res.bind_ok]
  refine wp_loop' (fun n (st : Arr R × Hash.Table) => st.1.size = cvals.size ∧
    (∀ k, k < n → st.1.get k = α * r.vals.get k) ∧
    Hash.Inv st.2 space n (fun k => r.cols.get k)) ⟨rfl, fun k hk => by omega, hinv⟩ ?_ ?_
  · rintro n hnn ⟨cv, t⟩ ⟨h1, h2, h3⟩
    simp only at h1 h2 h3 ⊢
    rw [Arr.read_ok (by omega), Res.bind_ok, Arr.write_ok _ (by omega), Res.bind_ok,
      Arr.read_ok (by omega), Res.bind_ok, Res.wp_bind]
    refine Res.wp_mono (h3.insert (by omega) _) ?_
    intro t' ht'
    rw [Res.wp_pure]
    refine ⟨h1, fun k hk => ?_, ht'.congr (fun k hk => ?_)⟩
    · simp only
      by_cases he : k = n
      · subst he; rw [upd_same]
      · rw [upd_ne _ _ he]; exact h2 k (by omega)
    · by_cases he : k = n
      · subst he; rw [upd_same]
      · rw [upd_ne _ _ he]
  · rintro ⟨cv, t⟩ ⟨h1, h2, h3⟩
    simp only at h1 h2 h3 ⊢
    obtain ⟨-, rfl⟩ := hr
    refine ⟨h1, fun k hk => ?_, space, _, by rw [CsrRow.list_length]; exact h3, fun k hk => ?_⟩
    · rw [CsrRow.list_getElem, h2 k (by simpa using hk)]
    · rw [List.getElem?_map, List.getElem?_eq_getElem hk, CsrRow.list_getElem]; rfl

omit [CommRing R] in
theorem good_getElem_inj {N : Nat} {L : SRow R} (h : SRow.Good N L) {L1 L2 : SRow R} {c : Nat} {v : R}
    (hL : L = L1 ++ (c, v) :: L2) {k : Nat} (hk : k < L.length) (hc : (L[k]).1 = c) :
    k = L1.length := by
  have hnd := h.1
  have hk' : k < (L.map Prod.fst).length := by simpa using hk
  have h1 : L1.length < (L.map Prod.fst).length := by rw [hL]; simp
  apply (List.Nodup.getElem_inj_iff hnd (hi := hk') (hj := h1)).1
  rw [List.getElem_map, List.getElem_map, hc]
  subst hL
  simp

theorem sumAB_row {N : Nat} {LA LB : SRow R} (hA : SRow.Good N LA) (hB : SRow.Good N LB) (α : R)
    (big : R → Bool) :
    (((LB.filter fun p => decide (p.1 ∈ LA.map Prod.fst)).map fun p =>
      Spec.keep big (α * SRow.den LA p.1 * p.2)).sum : R) =
      ∑ j ∈ Finset.range N, Spec.keep big (α * SRow.den LA j * SRow.den LB j) := by
  rw [SRow.sum_den_map hB (fun k v => Spec.keep big (α * SRow.den LA k * v))
    (fun k => by simp [Spec.keep])]
  clear hB
  induction LB with
  | nil => rfl
  | cons p L ih =>
    by_cases hp : p.1 ∈ LA.map Prod.fst
    · simp only [List.filter_cons, hp, decide_true, if_true, List.map_cons, List.sum_cons, ih]
    · simp only [List.filter_cons, hp, decide_false, List.map_cons, List.sum_cons]
      rw [SRow.den_of_not_mem hp]
      simp only [Bool.false_eq_true, if_false]
      rw [ih]
      simp [Spec.keep]

theorem sumAB_wp {A B : Csr R} {N : Nat} {a b : Spec.Mat R} (hA : A.Rep N a) (hB : B.Rep N b)
    (α : R) (big : R → Bool) (junk : Nat → Hash.Slot)
    (hsz : ∀ i, i < N → (A.row i).length ≤ 174762) :
    (A.sumAB B α big junk).wp E
      (fun s => s = Spec.total N N fun i j => Spec.keep big (α * a i j * b i j)) := by
  unfold sumAB
  rw [Res.wp_bind, hA.dim]
  refine wp_loop' (fun n (st : Arr R × Arr Nat × R) => st.1.size = N ∧ st.2.1.size = N ∧
    st.2.2 = ∑ i ∈ Finset.range n, ∑ j ∈ Finset.range N, Spec.keep big (α * a i j * b i j))
    ⟨rfl, rfl, by simp⟩ ?_ (fun st h => by rw [Res.wp_pure]; exact h.2.2)
  rintro i hi ⟨cv, ip, sum⟩ ⟨hc, hp, hsum⟩
  simp only at hc hp hsum ⊢
  have hgA := hA.good hi
  have hgB := hB.good hi
  have hlA := hgA.length_le
  have hlB := hgB.length_le
  rw [hA.read hi, Res.bind_ok, Res.wp_bind]
  refine Res.wp_mono (wp_loadRow (hA.is hi) α (by omega) junk (hsz i hi)) ?_
  rintro ⟨cv1, t⟩ ⟨g1, g2, space, ks, g3, g4⟩
  simp only at g1 g2 g3 ⊢
  rw [hB.read hi, Res.bind_ok, Res.wp_bind, (hB.is hi).fold]
  generalize hLA : A.row i = LA at *
  generalize hLB : B.row i = LB at *
  let flt : SRow R → SRow R := fun d => d.filter fun p => decide (p.1 ∈ LA.map Prod.fst)
  have hval : ∀ k (hk : k < LA.length), (LA[k]).2 = SRow.den LA (LA[k]).1 := fun k hk =>
    (SRow.den_of_mem hgA.1 (List.getElem_mem hk)).symm
  refine wp_forList (fun done (st : Arr R × Arr Nat × Nat) => st.1.size = N ∧ st.2.1.size = N ∧
    st.2.2 = (flt done).length ∧
    (∀ q (hq : q < (flt done).length), ∃ k, ∃ hk : k < LA.length, st.2.1.get q = k ∧
      (LA[k]).1 = ((flt done)[q]).1 ∧
      st.1.get k = α * SRow.den LA ((flt done)[q]).1 * ((flt done)[q]).2) ∧
    ∀ k (hk : k < LA.length), (LA[k]).1 ∉ done.map Prod.fst →
      st.1.get k = α * SRow.den LA (LA[k]).1) ?_ ?_ ?_
  · refine ⟨by simp only; omega, hp, rfl, fun q hq => by simp [flt] at hq, fun k hk _ => ?_⟩
    rw [g2 k hk, hval k hk]
  · rintro done ⟨c, w⟩ rest hL ⟨cv2, ip2, cnt⟩ ⟨k1, k2, k3, k4, k5⟩
    simp only at k1 k2 k3 k4 k5 ⊢
    have hcd : c ∉ done.map Prod.fst := by
      have := hgB.1
      rw [hL, List.map_append, List.nodup_append] at this
      intro hm
      exact this.2.2 c hm c (by simp) rfl
    have hcnt : cnt < N := by
      have h1 : (flt done).length ≤ done.length := List.length_filter_le _ _
      have h2 : LB.length = done.length + (rest.length + 1) := by rw [hL]; simp
      omega
    rcases lookup_row g3 g4 c with ⟨hn, e⟩ | ⟨L1, v, L2, hLL, e⟩
    · rw [e, Res.bind_ok]
      simp only
      rw [Res.wp_pure]
      have hf : flt (done ++ [(c, w)]) = flt done := by
        simp only [flt, List.filter_append, List.filter_cons, hn, decide_false, Bool.false_eq_true,
          if_false, List.filter_nil, List.append_nil]
      rw [hf]
      refine ⟨k1, k2, k3, k4, fun k hk hm => k5 k hk (fun h => hm (by simp [List.map_append, h]))⟩
    · rw [e, Res.bind_ok]
      simp only
      have hlt : L1.length < LA.length := by rw [hLL]; simp
      have hm : c ∈ LA.map Prod.fst := by rw [hLL]; simp
      have hLk : LA[L1.length]'hlt = (c, v) := by
        simp only [hLL]; simp
      rw [Arr.read_ok (by omega), Res.bind_ok, Arr.write_ok _ (by omega), Res.bind_ok,
        Arr.write_ok _ (by omega), Res.bind_ok, Res.wp_pure]
      have hf : flt (done ++ [(c, w)]) = flt done ++ [(c, w)] := by
        simp only [flt, List.filter_append, List.filter_cons, hm, decide_true,
          if_true, List.filter_nil]
      have hd := k5 L1.length hlt (by rw [hLk]; exact hcd)
      rw [hLk] at hd
      simp only at hd
      rw [hf]
      refine ⟨k1, k2, by simp only [List.length_append, List.length_singleton]; omega, ?_, ?_⟩
      · intro q hq
        simp only
        by_cases he : q = cnt
        · subst he
          have hgq : (flt done ++ [(c, w)])[q]'hq = (c, w) := by
            rw [List.getElem_append_right (by omega)]; simp
          refine ⟨L1.length, hlt, by rw [upd_same], by rw [hLk, hgq], ?_⟩
          rw [upd_same, hgq, hd]
        · have hq' : q < (flt done).length := by
            simp only [List.length_append, List.length_singleton] at hq; omega
          have hgq : (flt done ++ [(c, w)])[q]'hq = (flt done)[q] := List.getElem_append_left hq'
          obtain ⟨k, hk, e1, e2, e3⟩ := k4 q hq'
          refine ⟨k, hk, by rw [upd_ne _ _ he]; exact e1, by rw [hgq]; exact e2, ?_⟩
          rw [hgq, upd_ne, e3]
          intro hkl
          subst hkl
          rw [hLk] at e2
          simp only at e2
          apply hcd
          rw [e2]
          exact List.mem_map.2 ⟨_, (List.filter_sublist).subset (List.getElem_mem hq'), rfl⟩
      · intro k hk hmem
        simp only
        have hkc : (LA[k]).1 ≠ c := fun h => hmem (by simp [List.map_append, h])
        rw [upd_ne]
        · exact k5 k hk (fun h => hmem (by simp [List.map_append, h]))
        · intro h
          subst h
          rw [hLk] at hkc
          exact hkc rfl
  · rintro ⟨cv2, ip2, cnt⟩ ⟨k1, k2, k3, k4, -⟩
    simp only at k1 k2 k3 k4 ⊢
    rw [Res.wp_bind]
    have hcnt : cnt ≤ N := by
      have h1 : (flt LB).length ≤ LB.length := List.length_filter_le _ _
      omega
    refine wp_loop' (fun n (s : R) => s = sum + (((flt LB).take n).map fun p =>
      Spec.keep big (α * SRow.den LA p.1 * p.2)).sum) (by simp) ?_ ?_
    · rintro q hq s rfl
      obtain ⟨k, hk, e1, -, e3⟩ := k4 q (by omega)
      have hq' : q < (flt LB).length := by omega
      rw [Arr.read_ok (by omega), Res.bind_ok, e1, Arr.read_ok (by omega), Res.bind_ok, e3,
        List.take_add_one, List.getElem?_eq_getElem hq']
      simp only [Option.toList_some, List.map_append, List.map_cons, List.map_nil, List.sum_append,
        List.sum_cons, List.sum_nil, add_zero]
      unfold Spec.keep
      split
      · rw [Res.wp_pure, add_assoc]
      · rw [Res.wp_pure, add_zero]
    · rintro s rfl
      rw [Res.wp_pure]
      refine ⟨k1, k2, ?_⟩
      simp only
      rw [k3, List.take_length, Finset.sum_range_succ, ← hsum, sumAB_row hgA hgB]
      congr 1
      refine Finset.sum_congr rfl (fun j hj => ?_)
      have hj := Finset.mem_range.1 hj
      rw [← hA.den hi hj, ← hB.den hi hj, hLA, hLB]

theorem sumSquares2_wp {A B : Csr R} {N : Nat} {a b : Spec.Mat R} (hA : A.Rep N a) (hB : B.Rep N b)
    (α β : R) (big : R → Bool) (junk : Nat → Hash.Slot)
    (hsz : ∀ i, i < N → (A.row i).length ≤ 174762) :
    (A.sumSquares2 B α β big junk).wp E (fun s => s = Spec.total N N fun i j =>
      Spec.add big α β a b i j * Spec.add big α β a b i j) := by
  unfold sumSquares2
  rw [Res.wp_bind, hA.dim]
  refine wp_loop' (fun n (st : Arr R × R) => st.1.size = N ∧
    st.2 = ∑ i ∈ Finset.range n, ∑ j ∈ Finset.range N,
      Spec.add big α β a b i j * Spec.add big α β a b i j)
    ⟨rfl, by simp⟩ ?_ (fun st h => by rw [Res.wp_pure]; exact h.2)
  rintro i hi ⟨cv, sum⟩ ⟨hc, hsum⟩
  simp only at hc hsum ⊢
  have hgA := hA.good hi
  have hgB := hB.good hi
  have hlA := hgA.length_le
  rw [hA.read hi, Res.bind_ok, Res.wp_bind]
  refine Res.wp_mono (wp_loadRow (hA.is hi) α (by omega) junk (hsz i hi)) ?_
  rintro ⟨cv1, t⟩ ⟨g1, g2, space, ks, g3, g4⟩
  simp only at g1 g2 g3 ⊢
  rw [hB.read hi, Res.bind_ok, Res.wp_bind, (hB.is hi).fold]
  have hnnz : (A.data.get i).nnz = (A.row i).length := (hA.is hi).length
  generalize hLA : A.row i = LA at *
  generalize hLB : B.row i = LB at *
  have hsub : ∀ done rest, LB = done ++ rest → SRow.Good N done := fun done rest h =>
    hgB.sublist (by rw [h]; simp)
  refine wp_forList (fun done (st : Arr R × Nat) => st.1.size = N ∧
    st.2 = (sumList α β LA done).length ∧
    ∀ k (hk : k < (sumList α β LA done).length), st.1.get k = ((sumList α β LA done)[k]).2) ?_ ?_ ?_
  · refine ⟨by simp only; omega, by simp [sumList_length, fresh, hnnz], fun k hk => ?_⟩
    have hk' : k < LA.length := by simpa [sumList_length, fresh] using hk
    rw [g2 k hk']
    simp only [sumList, fresh, List.filter_nil, List.map_nil, List.append_nil, List.getElem_map,
      SRow.den_nil, mul_zero, add_zero]
    ring
  · rintro done ⟨c, w⟩ rest hL ⟨cv2, cnt⟩ ⟨k1, k2, k3⟩
    simp only at k1 k2 k3 ⊢
    have hgd := hsub (done ++ [(c, w)]) rest (by rw [hL]; simp)
    have hle := (sumList_good hgA hgd α β).1.length_le
    have hcd : c ∉ done.map Prod.fst := by
      have := hgd.1
      rw [List.map_append, List.nodup_append] at this
      intro hm
      exact this.2.2 c hm c (by simp) rfl
    rcases lookup_row g3 g4 c with ⟨hn, e⟩ | ⟨L1, v, L2, hLL, e⟩
    · rw [e, Res.bind_ok]
      simp only
      have hfr : fresh LA (done ++ [(c, w)]) = fresh LA done ++ [(c, w)] := by
        rw [fresh_append]
        congr 1
        simp [fresh, hn]
      have hs : sumList α β LA (done ++ [(c, w)]) = sumList α β LA done ++ [(c, β * w)] := by
        unfold sumList
        rw [hfr, List.map_append, ← List.append_assoc]
        congr 2
        apply List.map_congr_left
        intro p hp
        have : c ≠ p.1 := by rintro rfl; exact hn (List.mem_map.2 ⟨p, hp, rfl⟩)
        simp [this]
      rw [hs] at hle
      rw [List.length_append, List.length_singleton] at hle
      rw [Arr.write_ok _ (by omega), Res.bind_ok, Res.wp_pure]
      simp only [hs]
      refine ⟨k1, by simp [k2], fun k hk => ?_⟩
      by_cases he : k = cnt
      · subst he
        rw [upd_same, List.getElem_append_right (by omega)]; simp
      · have hk' : k < (sumList α β LA done).length := by
          simp only [List.length_append, List.length_singleton] at hk; omega
        rw [upd_ne _ _ he, List.getElem_append_left hk', k3 k hk']
    · rw [e, Res.bind_ok]
      simp only
      have hlt : L1.length < LA.length := by rw [hLL]; simp
      have hm : c ∈ LA.map Prod.fst := by rw [hLL]; simp
      have hLk : LA[L1.length]'hlt = (c, v) := by simp only [hLL]; simp
      have hfr : fresh LA (done ++ [(c, w)]) = fresh LA done := by
        rw [fresh_append]; simp [fresh, hm]
      have hlen : (sumList α β LA (done ++ [(c, w)])).length = (sumList α β LA done).length := by
        rw [sumList_length, sumList_length, hfr]
      have hlt' : L1.length < (sumList α β LA done).length := by rw [sumList_length]; omega
      rw [Arr.read_ok (by omega), Res.bind_ok, Arr.write_ok _ (by omega), Res.bind_ok, Res.wp_pure]
      refine ⟨k1, by rw [hlen]; exact k2, fun k hk => ?_⟩
      have hk' : k < (sumList α β LA done).length := by omega
      simp only
      by_cases hka : k < LA.length
      · have e1 : ∀ d : SRow R, ∀ h : k < (sumList α β LA d).length,
            (sumList α β LA d)[k] = ((LA[k]).1, (LA[k]).2 * α + β * SRow.den d (LA[k]).1) := by
          intro d h
          simp only [sumList]
          rw [List.getElem_append_left (by simpa using hka), List.getElem_map]
        by_cases he : k = L1.length
        · subst he
          rw [upd_same, k3 _ hk', e1 _ hk', e1 _ hk, hLk]
          simp only [SRow.den_append, SRow.den_cons, SRow.den_nil, if_true]
          ring
        · rw [upd_ne _ _ he, k3 _ hk', e1 _ hk', e1 _ hk]
          have hne : c ≠ (LA[k]).1 := fun h => he (good_getElem_inj hgA hLL hka h.symm)
          simp [hne]
      · rw [upd_ne _ _ (by omega), k3 _ hk']
        simp only [sumList]
        rw [List.getElem_append_right (by simpa using hka),
          List.getElem_append_right (by simpa using hka)]
        simp only [hfr, List.length_map]
  · rintro ⟨cv2, cnt⟩ ⟨k1, k2, k3⟩
    simp only at k1 k2 k3 ⊢
    obtain ⟨hg, hden⟩ := sumList_good hgA hgB α β
    have hle := hg.length_le
    refine wp_loop' (fun n (st : Arr R × R) => st.1.size = N ∧
      (∀ k (hk : k < (sumList α β LA LB).length), n ≤ k → st.1.get k = ((sumList α β LA LB)[k]).2) ∧
      st.2 = sum + (((sumList α β LA LB).take n).map fun p =>
        Spec.keep big p.2 * Spec.keep big p.2).sum) ⟨k1, fun k hk _ => k3 k hk, by simp⟩ ?_ ?_
    · rintro q hq ⟨cv3, s⟩ ⟨m1, m2, m3⟩
      simp only at m1 m2 m3 ⊢
      have hq' : q < (sumList α β LA LB).length := by omega
      rw [Arr.read_ok (by omega), Res.bind_ok, Arr.write_ok _ (by omega), Res.bind_ok, Res.wp_pure]
      refine ⟨m1, fun k hk hqk => ?_, ?_⟩
      · simp only
        rw [upd_ne _ _ (by omega)]
        exact m2 k hk (by omega)
      · simp only
        rw [m2 q hq' (le_refl q), m3, List.take_add_one, List.getElem?_eq_getElem hq']
        simp only [Option.toList_some, List.map_append, List.map_cons, List.map_nil,
          List.sum_append, List.sum_cons, List.sum_nil, add_zero]
        unfold Spec.keep
        split
        · rw [add_assoc]
        · simp
    · rintro ⟨cv3, s⟩ ⟨m1, -, m3⟩
      simp only at m1 m3 ⊢
      refine ⟨m1, ?_⟩
      rw [m3, k2, List.take_length, Finset.sum_range_succ, ← hsum,
        ← SRow.sum_den_map hg (fun _ v => Spec.keep big v * Spec.keep big v)
          (fun _ => by simp [Spec.keep])]
      congr 1
      refine Finset.sum_congr rfl (fun j hj => ?_)
      have hj := Finset.mem_range.1 hj
      rw [hden, Spec.add, ← hA.den hi hj, ← hB.den hi hj, hLA, hLB]

/-! ## Spectra -/

section Gersh

variable {K : Type} [Field K] [LinearOrder K]

theorem gershRow_eq {N : Nat} {A : Csr R} {a : Spec.Mat R} (hA : A.Rep N a) {i : Nat} (hi : i < N)
    (absv : R → K) (h0 : absv 0 = 0) :
    gershRow A absv i = .ok (a i i, Spec.radius absv N a i) := by
  unfold gershRow
  rw [hA.read hi, Res.bind_ok, (hA.is hi).fold]
  have hg := hA.good hi
  have key : (forList (A.row i) ((0 : R), (0 : K)) fun p st =>
      if i = p.1 then pure (p.2, st.2) else pure (st.1, st.2 + absv p.2)).wp False
      (fun st => st.1 = SRow.den (A.row i) i ∧
        st.2 = ((A.row i).map (fun p => if p.1 = i then 0 else absv p.2)).sum) := by
    refine wp_forList (fun done (st : R × K) => st.1 = SRow.den done i ∧
      st.2 = (done.map (fun p => if p.1 = i then 0 else absv p.2)).sum) (by simp) ?_ (fun _ h => h)
    rintro done ⟨c, v⟩ rest hL ⟨d, r⟩ ⟨h1, h2⟩
    simp only at h1 h2 ⊢
    subst h1 h2
    by_cases he : i = c
    · subst he
      have hno : i ∉ done.map Prod.fst := by
        have := hg.1
        rw [hL, List.map_append, List.nodup_append] at this
        exact fun hm => this.2.2 i hm i (by simp) rfl
      rw [if_pos rfl, Res.wp_pure]
      simp [SRow.den_of_not_mem hno]
    · rw [if_neg he, Res.wp_pure]
      simp [Ne.symm he]
  obtain ⟨st, e, h1, h2⟩ := Res.wp_exists key
  rw [e]
  obtain ⟨d, r⟩ := st
  simp only at h1 h2
  rw [h1, h2, Ell.offdiag_sum hg absv h0, hA.den hi hi]
  congr 2
  unfold Spec.radius
  refine Finset.sum_congr rfl (fun j hj => ?_)
  simp only [Finset.mem_filter, Finset.mem_range] at hj
  rw [hA.den hi hj.1]

theorem wp_gershgorinPartial {N : Nat} {A : Csr R} {a : Spec.Mat R} (hA : A.Rep N a)
    (absv re : R → K) (h0 : absv 0 = 0) (top bot : K) {n : Nat} (hn : n ≤ N) :
    (gershgorinPartial A absv re top bot n).wp E (fun e =>
      Ell.IsMinOf top 0 n (fun i => re (a i i) - Spec.radius absv N a i) e.1 ∧
      Ell.IsMaxOf bot 0 n (fun i => re (a i i) + Spec.radius absv N a i) e.2) := by
  unfold gershgorinPartial
  refine wp_loop' (fun n (e : K × K) =>
      Ell.IsMinOf top 0 n (fun i => re (a i i) - Spec.radius absv N a i) e.1 ∧
      Ell.IsMaxOf bot 0 n (fun i => re (a i i) + Spec.radius absv N a i) e.2) ?_ ?_ (fun _ h => h)
  · exact ⟨⟨le_refl _, fun i _ _ => by omega, Or.inl rfl⟩, ⟨le_refl _, fun i _ _ => by omega, Or.inl rfl⟩⟩
  · rintro n hn2 ⟨mn, mx⟩ ⟨⟨a1, a2, a3⟩, ⟨b1, b2, b3⟩⟩
    rw [gershRow_eq hA (by omega) absv h0, Res.bind_ok, Res.wp_pure]
    simp only at a1 a2 a3 b1 b2 b3 ⊢
    constructor
    · split
      · next hlt =>
        refine ⟨le_trans (le_of_lt hlt) a1, fun i hi1 hi2 => ?_, Or.inr ⟨n, by omega, by omega, rfl⟩⟩
        by_cases he : i = n
        · subst he; exact le_refl _
        · exact le_trans (le_of_lt hlt) (a2 i hi1 (by omega))
      · next hlt =>
        refine ⟨a1, fun i hi1 hi2 => ?_, ?_⟩
        · by_cases he : i = n
          · subst he; exact not_lt.1 hlt
          · exact a2 i hi1 (by omega)
        · rcases a3 with h | ⟨i, h1, h2, h3⟩
          · exact Or.inl h
          · exact Or.inr ⟨i, h1, by omega, h3⟩
    · split
      · next hlt =>
        refine ⟨le_trans b1 (le_of_lt hlt), fun i hi1 hi2 => ?_, Or.inr ⟨n, by omega, by omega, rfl⟩⟩
        by_cases he : i = n
        · subst he; exact le_refl _
        · exact le_trans (b2 i hi1 (by omega)) (le_of_lt hlt)
      · next hlt =>
        refine ⟨b1, fun i hi1 hi2 => ?_, ?_⟩
        · by_cases he : i = n
          · subst he; exact not_lt.1 hlt
          · exact b2 i hi1 (by omega)
        · rcases b3 with h | ⟨i, h1, h2, h3⟩
          · exact Or.inl h
          · exact Or.inr ⟨i, h1, by omega, h3⟩

omit [LinearOrder K] in
theorem wp_accumulateOffdiag {N : Nat} {A : Csr R} {a : Spec.Mat R} (hA : A.Rep N a) (absv : R → K)
    (h0 : absv 0 = 0) (incl : Bool) :
    (accumulateOffdiag A absv incl).wp E (fun out => out.size = N ∧ ∀ i, i < N →
      out.get i = Spec.radius absv N a i + if incl then absv (a i i) else 0) := by
  have hd := hA.dim
  unfold accumulateOffdiag
  refine wp_loop' (fun n (out : Arr K) => out.size = N ∧ ∀ i, i < n →
      out.get i = Spec.radius absv N a i + if incl then absv (a i i) else 0)
    ⟨hd, fun i hi => by omega⟩ ?_ (fun out h => ⟨h.1, fun i hi => h.2 i (by omega)⟩)
  rintro i hi out ⟨hs, ho⟩
  have hiN : i < N := by omega
  have hg := hA.good hiN
  rw [hA.read hiN, Res.bind_ok, (hA.is hiN).fold,
    forList_sum _ (fun p => if p.1 = i ∧ incl = false then 0 else absv p.2) _ (fun p _ t => by
      by_cases hc : i ≠ p.1 ∨ incl = true
      · rw [if_pos hc, if_neg]
        · rfl
        · rintro ⟨h1, h2⟩
          rcases hc with hc | hc
          · exact hc h1.symm
          · rw [h2] at hc; cases hc
      · rw [if_neg hc]
        simp only [not_or, not_not, Bool.not_eq_true] at hc
        rw [if_pos ⟨hc.1.symm, hc.2⟩, add_zero]; rfl),
    Res.bind_ok, Arr.wp_write]
  refine ⟨by omega, hs, fun i' hi' => ?_⟩
  simp only
  by_cases he : i' = i
  · subst he
    rw [upd_same, zero_add,
      ← SRow.sum_den_map hg (fun k v => if k = i' ∧ incl = false then 0 else absv v)
        (fun k => by simp only [h0, ite_self])]
    have hmem : i' ∈ Finset.range N := by simpa using hiN
    rw [← Finset.add_sum_erase _ _ hmem]
    unfold Spec.radius
    rw [Finset.filter_ne', add_comm]
    congr 1
    · refine Finset.sum_congr rfl (fun j hj => ?_)
      have hne := (Finset.mem_erase.1 hj).1
      have hjN := Finset.mem_range.1 (Finset.mem_erase.1 hj).2
      simp only [hne, false_and, if_false, hA.den hiN hjN]
    · rw [hA.den hiN hiN]
      cases incl <;> simp
  · rw [upd_ne _ _ he]; exact ho i' (by omega)

theorem wp_normalize {N : Nat} {A : Csr K} {a : Spec.Mat K} (hA : A.Rep N a) (mn mx : K)
    {sc sc1 sc2 : Sched} (hsc : IsSched 0 N sc) (hsc1 : IsSched 0 N sc1) (hsc2 : IsSched 0 N sc2) :
    (A.normalize mn mx sc sc1 sc2).wp E (fun A' => A'.M = A.M ∧ A'.Rep N (fun i j =>
      -1 / (mx - mn) * a i j + if i = j then mx / (mx - mn) else 0)) := by
  unfold normalize
  simp only
  rw [Res.wp_bind]
  refine Res.wp_mono (wp_scaleInplace hA _ hsc) ?_
  rintro A1 ⟨h1, h2⟩
  refine Res.wp_mono (wp_addIdentity h2 _ _ hsc1 hsc2) ?_
  rintro A2 ⟨k1, k2⟩
  refine ⟨k1.trans h1, k2.congr fun i j _ _ => ?_⟩
  show Spec.keep _ (_ : K) = _
  unfold Spec.keep
  by_cases h : (-1 / (mx - mn) * a i j + if i = j then mx / (mx - mn) else 0) = 0
  · rw [h]; simp
  · rw [if_pos (by simpa using h)]

end Gersh

/-! ## Submatrices -/

omit [CommRing R] in
theorem wp_extractRow {N : Nat} {r : CsrRow R} {L : SRow R} (hr : r.Is L) (hg : SRow.Good N L)
    (icol bN : Nat) (jv : Nat → R) (ji : Nat → Nat) :
    (extractRow r icol bN jv ji).wp E (fun st => st.1.size = bN ∧ st.2.1.size = bN ∧ st.2.2 ≤ bN ∧
      CsrRow.pre st.1.get st.2.1.get st.2.2 =
        (L.filter fun p => decide (icol ≤ p.1 ∧ p.1 < icol + bN)).map fun p => (p.1 - icol, p.2)) := by
  unfold extractRow
  rw [hr.fold]
  refine wp_forList (fun done (st : Arr Nat × Arr R × Nat) => st.1.size = bN ∧ st.2.1.size = bN ∧
      CsrRow.pre st.1.get st.2.1.get st.2.2 =
        (done.filter fun p => decide (icol ≤ p.1 ∧ p.1 < icol + bN)).map fun p => (p.1 - icol, p.2))
    ⟨rfl, rfl, rfl⟩ ?_ ?_
  · rintro done ⟨c, v⟩ rest hL ⟨cs, vs, n⟩ ⟨h1, h2, h3⟩
    simp only at h1 h2 h3 ⊢
    by_cases hc : icol ≤ c ∧ c < icol + bN
    · have hn : n < bN := by
        have hgd : SRow.Good bN ((( done ++ [(c, v)]).filter fun p =>
            decide (icol ≤ p.1 ∧ p.1 < icol + bN)).map fun p => (p.1 - icol, p.2)) := by
          have hs : SRow.Good N ((done ++ [(c, v)]).filter fun p =>
              decide (icol ≤ p.1 ∧ p.1 < icol + bN)) :=
            hg.sublist (List.filter_sublist.trans (by rw [hL]; simp))
          constructor
          · rw [List.map_map]
            have := hs.1
            rw [List.nodup_map_iff_inj_on (List.Nodup.of_map _ hs.1)]
            intro x hx y hy hxy
            simp only [List.mem_filter, decide_eq_true_eq] at hx hy
            simp only [Function.comp] at hxy
            exact List.inj_on_of_nodup_map hs.1 (List.mem_filter.2 ⟨hx.1, by simpa using hx.2⟩)
              (List.mem_filter.2 ⟨hy.1, by simpa using hy.2⟩) (by omega)
          · intro p hp
            obtain ⟨q, hq, rfl⟩ := List.mem_map.1 hp
            have := (List.mem_filter.1 hq).2
            simp only [decide_eq_true_eq] at this
            simp only; omega
        have hl := hgd.length_le
        have h4 := congrArg List.length h3
        simp only [CsrRow.pre_length, List.length_map] at h4
        rw [List.length_map, List.filter_append, List.length_append, List.filter_cons,
          if_pos (decide_eq_true hc), List.length_cons] at hl
        omega
      rw [if_pos hc, Arr.write_ok _ (by omega), Res.bind_ok, Arr.write_ok _ (by omega), Res.bind_ok,
        Res.wp_pure]
      refine ⟨h1, h2, ?_⟩
      simp only
      rw [CsrRow.pre_upd, h3]
      simp [List.filter_append, hc]
    · rw [if_neg hc, Res.wp_pure]
      refine ⟨h1, h2, ?_⟩
      simp only
      rw [h3]
      simp only [List.filter_append, List.filter_cons, hc, decide_false, Bool.false_eq_true, if_false,
        List.filter_nil, List.append_nil]
  · rintro ⟨cs, vs, n⟩ ⟨h1, h2, h3⟩
    simp only at h1 h2 h3 ⊢
    refine ⟨h1, h2, ?_, h3⟩
    have hgd : SRow.Good bN ((L.filter fun p =>
        decide (icol ≤ p.1 ∧ p.1 < icol + bN)).map fun p => (p.1 - icol, p.2)) := by
      have hs : SRow.Good N (L.filter fun p =>
          decide (icol ≤ p.1 ∧ p.1 < icol + bN)) := hg.sublist List.filter_sublist
      constructor
      · rw [List.map_map, List.nodup_map_iff_inj_on (List.Nodup.of_map _ hs.1)]
        intro x hx y hy hxy
        have hx2 := (List.mem_filter.1 hx).2
        have hy2 := (List.mem_filter.1 hy).2
        simp only [decide_eq_true_eq] at hx2 hy2
        simp only [Function.comp] at hxy
        exact List.inj_on_of_nodup_map hs.1 hx hy (by omega)
      · intro p hp
        obtain ⟨q, hq, rfl⟩ := List.mem_map.1 hp
        have := (List.mem_filter.1 hq).2
        simp only [decide_eq_true_eq] at this
        simp only; omega
    have hl := hgd.length_le
    rw [← h3, CsrRow.pre_length] at hl
    exact hl

theorem den_window (L : SRow R) (icol bN j : Nat) (hj : j < bN) :
    SRow.den ((L.filter fun p => decide (icol ≤ p.1 ∧ p.1 < icol + bN)).map
      fun p => (p.1 - icol, p.2)) j = SRow.den L (icol + j) := by
  induction L with
  | nil => rfl
  | cons p L ih =>
    rw [SRow.den_cons, ← ih, List.filter_cons]
    by_cases hp : icol ≤ p.1 ∧ p.1 < icol + bN
    · simp only [hp, and_self, decide_true, if_true, List.map_cons, SRow.den_cons]
      congr 1
      by_cases he : p.1 = icol + j
      · rw [if_pos he, if_pos (by omega)]
      · rw [if_neg he, if_neg (by omega)]
    · simp only [hp, decide_false, Bool.false_eq_true, if_false]
      rw [if_neg (by omega), zero_add]

theorem wp_extractSubmatrix {A : Csr R} {N : Nat} {a : Spec.Mat R} (hA : A.Rep N a)
    {irow icol bN : Nat} (bM : Nat) (hr : irow + bN ≤ N) (hc : icol + bN ≤ N) (big0 : R → Bool)
    (jv : Nat → R) (ji : Nat → Nat) :
    (A.extractSubmatrix irow icol bN bM big0 jv ji).wp E (fun B => B.M = bM ∧
      B.Rep bN (fun i j => Spec.keep big0 (a (irow + i) (icol + j)))) := by
  unfold extractSubmatrix
  refine wp_loopFrom (fun n (B : Csr R) => B.M = bM ∧ B.Rep bN (fun i j =>
    if i + irow < n then Spec.keep big0 (a (irow + i) (icol + j)) else 0)) (by omega) ?_ ?_ ?_
  · refine ⟨rfl, (rep_newZero bN bM).congr fun i j _ _ => ?_⟩
    rw [if_neg (by omega)]; rfl
  · rintro i hi1 hi2 B ⟨hBM, hB⟩
    have hi : i < N := by omega
    rw [hA.read hi, Res.bind_ok, Res.wp_bind]
    refine Res.wp_mono (wp_extractRow (hA.is hi) (hA.good hi) icol bN jv ji) ?_
    rintro ⟨cs, vs, n⟩ ⟨h1, h2, h3, h4⟩
    simp only at h1 h2 h3 h4 ⊢
    have hgd : SRow.Good bN (CsrRow.pre cs.get vs.get n) := by
      rw [h4]
      have hs : SRow.Good N ((A.row i).filter fun p =>
          decide (icol ≤ p.1 ∧ p.1 < icol + bN)) := (hA.good hi).sublist List.filter_sublist
      constructor
      · rw [List.map_map, List.nodup_map_iff_inj_on (List.Nodup.of_map _ hs.1)]
        intro x hx y hy hxy
        have hx2 := (List.mem_filter.1 hx).2
        have hy2 := (List.mem_filter.1 hy).2
        simp only [decide_eq_true_eq] at hx2 hy2
        simp only [Function.comp] at hxy
        exact List.inj_on_of_nodup_map hs.1 hx hy (by omega)
      · intro p hp
        obtain ⟨q, hq, rfl⟩ := List.mem_map.1 hp
        have := (List.mem_filter.1 hq).2
        simp only [decide_eq_true_eq] at this
        simp only; omega
    refine Res.wp_mono (wp_setSparseRow hB (by omega) (by omega) (by omega) big0 ?_ ?_) ?_
    · intro k hk _
      exact hgd.2 (cs.get k, vs.get k) (by simp [CsrRow.pre]; exact ⟨k, hk, rfl, rfl⟩)
    · intro k k' hk hk' _ _ he
      have := hgd.1
      simp only [CsrRow.pre, List.map_map] at this
      exact List.inj_on_of_nodup_map this (by simpa using hk) (by simpa using hk') he
    · rintro B' ⟨g1, g2⟩
      refine ⟨g1.trans hBM, g2.congr fun i' j hi' hj => ?_⟩
      simp only
      by_cases he : i' = i - irow
      · rw [if_pos he, if_pos (by omega), SRow.den_filter_keep hgd.1, h4,
          den_window _ icol bN j hj, hA.den hi (by omega)]
        congr 2; omega
      · rw [if_neg he]
        by_cases hlt : i' + irow < i
        · rw [if_pos hlt, if_pos (by omega)]
        · rw [if_neg hlt, if_neg (by omega)]
  · rintro B ⟨h1, h2⟩
    refine ⟨h1, h2.congr fun i j hi _ => ?_⟩
    simp only
    rw [if_pos (by omega)]

/-- Appending the entries of `L`, shifted by `icol`, to a row without entries there. -/
theorem wp_appendShifted {N bN : Nat} {L : SRow R} (hL : SRow.Good bN L) {icol : Nat}
    (hc : icol + bN ≤ N) {r : CsrRow R} {g : Nat → R} (hr : r.Holds N g)
    (hno : ∀ j, icol ≤ j → j < icol + bN → j ∉ r.list.map Prod.fst) :
    (forList L r fun p r => r.setNew (p.1 + icol) p.2).wp E (fun r' => r'.Holds N fun j =>
      if icol ≤ j ∧ j < icol + bN then SRow.den L (j - icol) else g j) := by
  have hg0 : ∀ j, icol ≤ j → j < icol + bN → g j = 0 := fun j h1 h2 => by
    rw [← hr.2.2 j (by omega), SRow.den_of_not_mem (hno j h1 h2)]
  refine wp_forList (fun done (r' : CsrRow R) => (r'.Holds N fun j =>
      if icol ≤ j ∧ j < icol + bN then SRow.den done (j - icol) else g j) ∧
      ∀ j, j ∈ r'.list.map Prod.fst → j ∈ r.list.map Prod.fst ∨
        ∃ c ∈ done.map Prod.fst, j = c + icol) ?_ ?_ (fun _ h => h.1)
  · refine ⟨hr.congr fun j hj => ?_, fun j h => Or.inl h⟩
    split
    · next h => rw [hg0 j h.1 h.2]; rfl
    · rfl
  · rintro done ⟨c, v⟩ rest he r' ⟨h1, h2⟩
    have hcb : c < bN := hL.2 (c, v) (by rw [he]; simp)
    have hcd : c ∉ done.map Prod.fst := by
      have := hL.1
      rw [he, List.map_append, List.nodup_append] at this
      exact fun hm => this.2.2 c hm c (by simp) rfl
    have hnm : c + icol ∉ r'.list.map Prod.fst := by
      intro hm
      rcases h2 _ hm with h | ⟨c', hc', e⟩
      · exact hno _ (by omega) (by omega) h
      · have : c = c' := by omega
        exact hcd (this ▸ hc')
    refine Res.wp_mono (Res.wp_and (CsrRow.wp_setNew_holds h1 (by omega) hnm v)
      (CsrRow.wp_setNew h1.is (c + icol) v)) ?_
    rintro r'' ⟨k1, k2, -⟩
    refine ⟨k1.congr fun j hj => ?_, fun j hj => ?_⟩
    · by_cases hj1 : j = c + icol
      · subst hj1
        rw [if_pos rfl, if_pos (by omega), Nat.add_sub_cancel]
        simp [SRow.den_of_not_mem hcd]
      · rw [if_neg hj1]
        by_cases hw : icol ≤ j ∧ j < icol + bN
        · rw [if_pos hw, if_pos hw]
          have : c ≠ j - icol := by omega
          simp [this]
        · rw [if_neg hw, if_neg hw]
    · rw [k2.2] at hj
      simp only [List.map_append, List.map_cons, List.map_nil, List.mem_append, List.mem_singleton]
        at hj
      rcases hj with hj | hj
      · rcases h2 j hj with h | ⟨c', hc', e⟩
        · exact Or.inl h
        · exact Or.inr ⟨c', by simp only [List.map_append, List.mem_append]; exact Or.inl hc', e⟩
      · exact Or.inr ⟨c, by simp, hj⟩

theorem wp_assignSubmatrix {A B : Csr R} {N bN : Nat} {a b : Spec.Mat R} (hA : A.Rep N a)
    (hB : B.Rep bN b) {irow icol : Nat} (hr : irow + bN ≤ N) (hc : icol + bN ≤ N)
    (hno : ∀ i j, irow ≤ i → i < irow + bN → icol ≤ j → j < icol + bN → ¬ A.Stored i j) :
    (A.assignSubmatrix B irow icol).wp E (fun A' => A'.M = A.M ∧ A'.Rep N (fun i j =>
      if (irow ≤ i ∧ i < irow + bN) ∧ (icol ≤ j ∧ j < icol + bN) then b (i - irow) (j - icol)
      else a i j)) := by
  unfold assignSubmatrix
  rw [hB.dim]
  refine wp_loop' (fun n (A' : Csr R) => A'.M = A.M ∧ (∀ i, irow + n ≤ i → A'.data.get i = A.data.get i) ∧
    A'.Rep N (fun i j =>
      if (irow ≤ i ∧ i < irow + n) ∧ (icol ≤ j ∧ j < icol + bN) then b (i - irow) (j - icol)
      else a i j)) ?_ ?_ (fun A' h => ⟨h.1, h.2.2⟩)
  · refine ⟨rfl, fun _ _ => rfl, hA.congr fun i j _ _ => ?_⟩
    rw [if_neg (by omega)]
  · rintro i hi A' ⟨h1, h2, h3⟩
    have hgB := hB.good hi
    rw [hB.read hi, Res.bind_ok, (hB.is hi).fold]
    have hok : (forList (B.row i) () fun p _ => if p.1 < bN then pure () else .error) = .ok () := by
      have : ∀ L : SRow R, (∀ p ∈ L, p.1 < bN) →
          (forList L () fun p _ => if p.1 < bN then pure () else .error) = .ok () := by
        intro L
        induction L with
        | nil => intro _; rfl
        | cons p L ih =>
          intro h
          rw [forList_cons, if_pos (h p (by simp)), Res.pure_eq, Res.bind_ok]
          exact ih (fun q hq => h q (by simp [hq]))
      exact this _ hgB.2
    rw [hok, Res.bind_ok]
    have hiN : i + irow < N := by omega
    have hrow := h2 (i + irow) (by omega)
    have hnoi : ∀ j, icol ≤ j → j < icol + bN → j ∉ (A'.data.get (i + irow)).list.map Prod.fst := by
      intro j hj1 hj2 hm
      rw [hrow] at hm
      exact hno (i + irow) j (by omega) (by omega) hj1 hj2 (stored_iff.2 hm)
    refine Res.wp_mono (wp_onRow (by rw [h3.size]; exact hiN) (by
      rw [(hB.is hi).fold]
      exact wp_appendShifted hgB hc (h3.holds _ hiN) hnoi)) ?_
    rintro A'' ⟨k1, k2, k3, k4, k5⟩
    refine ⟨k2.trans h1, fun i' hi' => ?_, k1.trans h3.dim, k3.trans h3.size, fun i' hi' => ?_⟩
    · rw [k5 i' (by omega)]; exact h2 i' (by omega)
    · by_cases he : i' = i + irow
      · subst he
        refine k4.congr fun j hj => ?_
        by_cases hw : icol ≤ j ∧ j < icol + bN
        · rw [if_pos hw, if_pos ⟨by omega, hw⟩, hB.den hi (by omega), Nat.add_sub_cancel]
        · rw [if_neg hw, if_neg (by omega), if_neg (by omega)]
      · rw [k5 i' he]
        refine (h3.holds i' hi').congr fun j hj => ?_
        by_cases hw : (irow ≤ i' ∧ i' < irow + i) ∧ (icol ≤ j ∧ j < icol + bN)
        · rw [if_pos hw, if_pos (by omega)]
        · rw [if_neg hw, if_neg (by omega)]

/-! ## Introspection -/

theorem wp_getM {A : Csr R} {N : Nat} {a : Spec.Mat R} (hA : A.Rep N a) :
    A.getM.wp E (fun m => m = (Finset.range N).sup fun i => (A.data.get i).alloc) := by
  unfold getM
  rw [hA.dim]
  refine wp_loop' (fun n m => m = (Finset.range n).sup fun i => (A.data.get i).alloc) (by simp) ?_
    (fun _ h => h)
  rintro i hi m rfl
  rw [hA.read hi, Res.bind_ok, Res.wp_pure, Finset.range_add_one, Finset.sup_insert]
  split
  · next h => exact (max_eq_left (le_of_lt h)).symm
  · next h => exact (max_eq_right (not_lt.1 h)).symm

theorem rowBandwidth_eq {A : Csr R} {N : Nat} {a : Spec.Mat R} (hA : A.Rep N a) {i : Nat}
    (hi : i < N) :
    A.rowBandwidth i = .ok ((Finset.range N).filter (fun j => A.Stored i j)).card := by
  unfold rowBandwidth
  rw [hA.read hi, Res.bind_ok, (hA.is hi).length, ← List.length_map (f := Prod.fst)]
  have := SRow.length_eq_card (N := N) (hA.good hi).1 (fun j => decide (A.Stored i j)) (fun j => by
    rw [decide_eq_true_eq, stored_iff]
    refine ⟨fun h => ⟨?_, h⟩, fun h => h.2⟩
    obtain ⟨p, hp, rfl⟩ := List.mem_map.1 h
    exact (hA.good hi).2 p hp)
  rw [this]
  simp

theorem countAbove_eq {A : Csr R} {N : Nat} {a : Spec.Mat R} (hA : A.Rep N a) (big : R → Bool)
    (h0 : big 0 = false) :
    A.countAbove big = .ok (∑ i ∈ Finset.range N, Spec.rowCount big N a i) := by
  have key : (A.countAbove big).wp False (fun c => c = ∑ i ∈ Finset.range N, Spec.rowCount big N a i) := by
    unfold countAbove
    rw [hA.dim]
    refine wp_loop' (fun n c => c = ∑ i ∈ Finset.range n, Spec.rowCount big N a i) (by simp) ?_
      (fun _ h => h)
    rintro i hi c rfl
    rw [hA.read hi, Res.bind_ok, (hA.is hi).fold,
      forList_sum _ (fun p => if big p.2 = true then 1 else 0) _ (fun p _ t => by
        cases big p.2 <;> simp),
      Res.wp_ok, Finset.sum_range_succ,
      ← SRow.sum_den_map (hA.good hi) (fun _ v => if big v = true then 1 else 0)
        (fun _ => by simp [h0])]
    congr 1
    unfold Spec.rowCount
    rw [Finset.card_filter]
    exact Finset.sum_congr rfl (fun j hj => by rw [hA.den hi (Finset.mem_range.1 hj)])
  obtain ⟨c, e, rfl⟩ := Res.wp_exists key
  exact e

end Csr

end Bml
