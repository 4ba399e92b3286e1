import Verif.Csr.Ops3
import Verif.Ellpack.TransposeInPlace

/-!
# Correctness of the CSR transposes
-/

namespace Bml

namespace CsrRow

variable {R : Type} {E : Prop}

theorem is_updEntry {r : CsrRow R} {L1 L2 : SRow R} {p : Nat × R}
    (h : r.Is (L1 ++ p :: L2)) (c : Nat) (w : R) :
    ({ r with vals := ⟨r.vals.size, upd r.vals.get L1.length w⟩,
              cols := ⟨r.cols.size, upd r.cols.get L1.length c⟩ } : CsrRow R).Is
      (L1 ++ (c, w) :: L2) := by
  obtain ⟨⟨h1, h2, h3, h4⟩, hl⟩ := h
  refine ⟨⟨h1, h2, h3, h4⟩, ?_⟩
  have hlen : r.nnz = L1.length + (L2.length + 1) := by
    rw [← list_length, hl]; simp
  apply List.ext_getElem?
  intro k
  rcases Nat.lt_trichotomy k L1.length with hk | hk | hk
  · have e1 : (L1 ++ (c, w) :: L2)[k]? = (L1 ++ p :: L2)[k]? := by
      rw [List.getElem?_append_left hk, List.getElem?_append_left hk]
    rw [e1, ← hl]
    simp only [list, List.getElem?_map]
    by_cases hkn : k < r.nnz
    · simp [hkn, upd_ne _ _ (show k ≠ L1.length by omega)]
    · omega
  · subst hk
    simp only [list, List.getElem?_map]
    simp [hlen]
  · have e1 : (L1 ++ (c, w) :: L2)[k]? = (L1 ++ p :: L2)[k]? := by
      rw [List.getElem?_append_right (by omega), List.getElem?_append_right (by omega)]
      obtain ⟨m, hm⟩ : ∃ m, k - L1.length = m + 1 := ⟨k - L1.length - 1, by omega⟩
      rw [hm]; simp
    rw [e1, ← hl]
    simp only [list, List.getElem?_map]
    by_cases hkn : k < r.nnz
    · simp [hkn, upd_ne _ _ (show k ≠ L1.length by omega)]
    · rw [List.getElem?_eq_none (l := List.range r.nnz) (by simpa using Nat.le_of_not_lt hkn)]; rfl

/-- Swapping an entry to the front of the part behind `D`. -/
theorem wp_swap {r : CsrRow R} {D U1 U2 : SRow R} {p : Nat × R} (h : r.Is (D ++ U1 ++ p :: U2)) :
    (r.swap (D.length + U1.length) D.length).wp E (fun r' =>
      ∃ U', r'.Is (D ++ p :: U') ∧ U'.Perm (U1 ++ U2)) := by
  unfold swap
  cases U1 with
  | nil =>
    rw [if_pos (by simp), Res.wp_pure]
    exact ⟨U2, by simpa using h, by simp⟩
  | cons u U1 =>
    rw [if_neg (by simp)]
    have h1 : r.Is ((D ++ u :: U1) ++ p :: U2) := by simpa using h
    have h2 : r.Is (D ++ u :: (U1 ++ p :: U2)) := by simpa using h
    obtain ⟨g1, g2⟩ := Is.get_at (c := p.1) (v := p.2) h1
    obtain ⟨g3, g4⟩ := Is.get_at (c := u.1) (v := u.2) h2
    have b1 := h1.vals_lt
    have b2 := h2.vals_lt
    have b3 := h1.cols_lt
    have b4 := h2.cols_lt
    have hlen : (D ++ u :: U1).length = D.length + (u :: U1).length := by simp
    rw [hlen] at g1 g2 b1 b3
    simp only [Res.wp_bind, Arr.wp_read, Arr.wp_write, Res.wp_pure, b1, b2, b3, b4, true_and]
    rw [g1, g2, g3, g4]
    refine ⟨U1 ++ u :: U2, ?_, ?_⟩
    · have e1 := is_updEntry h1 u.1 u.2
      rw [hlen] at e1
      rw [List.append_assoc, List.cons_append] at e1
      have e2 := is_updEntry e1 p.1 p.2
      simpa using e2
    · simp only [List.cons_append]
      exact List.perm_middle

theorem Is.dropLast {r : CsrRow R} {L : SRow R} {p : Nat × R} (h : r.Is (L ++ [p])) :
    ({ r with nnz := r.nnz - 1 } : CsrRow R).Is L := by
  obtain ⟨⟨h1, h2, h3, h4⟩, hl⟩ := h
  refine ⟨⟨h1, h2, by simp only; omega, h4⟩, ?_⟩
  have hn : r.nnz = L.length + 1 := by rw [← list_length, hl]; simp
  rw [list_eq, hn, pre_succ] at hl
  rw [list_eq]
  simp only [hn, Nat.add_sub_cancel]
  exact (List.append_inj' hl rfl).1

theorem Is.split_tail {r : CsrRow R} {D U : SRow R} (h : r.Is (D ++ U)) {k : Nat}
    (h1 : D.length ≤ k) (h2 : k < D.length + U.length) :
    ∃ U1 U2, U = U1 ++ (r.cols.get k, r.vals.get k) :: U2 ∧ D.length + U1.length = k := by
  obtain ⟨L1, L2, e, hl⟩ := h.split (k := k) (by simpa using h2)
  rw [List.append_eq_append_iff] at e
  rcases e with ⟨as, rfl, e⟩ | ⟨bs, rfl, e⟩
  · exact ⟨as, L2, e, by simpa using hl⟩
  · have : bs = [] := by
      have : bs.length = 0 := by simp at h1; omega
      exact List.length_eq_zero_iff.1 this
    subst this
    simp only [List.append_nil, List.nil_append] at e hl ⊢
    exact ⟨[], L2, by rw [← e]; rfl, by simpa using hl⟩

end CsrRow

namespace Csr

variable {R : Type} [CommRing R] {E : Prop}

/-! ## `bml_transpose_new` -/

/-- All positions `(row, pos)` of stored entries in program order. -/
def slots (A : Csr R) : List (Nat × Nat) :=
  (List.range A.N).flatMap fun i => (List.range (A.data.get i).nnz).map fun p => (i, p)

omit [CommRing R] in
theorem mem_slots {A : Csr R} {ij : Nat × Nat} :
    ij ∈ A.slots ↔ ij.1 < A.N ∧ ij.2 < (A.data.get ij.1).nnz := by
  obtain ⟨i, j⟩ := ij
  simp only [slots, List.mem_flatMap, List.mem_range, List.mem_map, Prod.mk.injEq]
  constructor
  · rintro ⟨i', h1, j', h2, rfl, rfl⟩; exact ⟨h1, h2⟩
  · rintro ⟨h1, h2⟩; exact ⟨i, h1, j, h2, rfl, rfl⟩

omit [CommRing R] in
theorem slots_nodup (A : Csr R) : A.slots.Nodup := by
  unfold slots
  rw [List.nodup_flatMap]
  refine ⟨fun i _ => List.nodup_range.map (fun p q h => by simpa using h), ?_⟩
  refine List.nodup_range.imp ?_
  intro i j hij x hx hy
  simp only [List.mem_map, List.mem_range] at hx hy
  obtain ⟨p, -, rfl⟩ := hx
  obtain ⟨q, -, hq⟩ := hy
  simp only [Prod.mk.injEq] at hq
  exact hij hq.1.symm

/-- The entries that the appends `sc` put into row `j`. -/
def appended (A : Csr R) (sc : List (Nat × Nat)) (j : Nat) : SRow R :=
  (sc.filter fun ip => decide ((A.data.get ip.1).cols.get ip.2 = j)).map fun ip =>
    (ip.1, (A.data.get ip.1).vals.get ip.2)

theorem wp_transposeNew {A : Csr R} {N : Nat} {a : Spec.Mat R} (hA : A.Rep N a)
    {sc : List (Nat × Nat)} (hsc : sc.Perm A.slots) (jv : Nat → Nat → R) (ji : Nat → Nat → Nat) :
    (A.transposeNew sc jv ji).wp E (fun B => B.M = A.M ∧ B.Rep N (Spec.transpose a)) := by
  have hmem : ∀ ip, ip ∈ sc ↔ ip.1 < N ∧ ip.2 < (A.data.get ip.1).nnz := by
    intro ip; rw [hsc.mem_iff, mem_slots, hA.dim]
  have hnd : sc.Nodup := hsc.nodup_iff.2 A.slots_nodup
  unfold transposeNew
  refine wp_forList (fun done (B : Csr R) => B.N = N ∧ B.M = A.M ∧ B.data.size = N ∧
    ∀ j, j < N → (B.data.get j).Is (appended A done j)) ?_ ?_ ?_
  · refine ⟨hA.dim, rfl, hA.dim, fun j _ => ?_⟩
    exact CsrRow.noinit_is _ _ _
  · rintro done ip rest hL B ⟨h1, h2, h3, h4⟩
    obtain ⟨hi, hp⟩ := (hmem ip).1 (by rw [hL]; simp)
    have hI := hA.is hi
    have hj : (A.data.get ip.1).cols.get ip.2 < N :=
      (hA.good hi).2 _ (CsrRow.mem_list.2 ⟨ip.2, hp, rfl⟩)
    have hle := hI.nnz_le
    rw [hA.read hi, Res.bind_ok, Arr.read_ok (by rw [hI.cols_size]; omega), Res.bind_ok,
      Arr.read_ok (by rw [hI.vals_size]; omega), Res.bind_ok]
    unfold setElementNew
    refine Res.wp_mono (wp_onRow (by rw [h3]; exact hj) (CsrRow.wp_setNew (h4 _ hj) _ _)) ?_
    rintro B' ⟨k1, k2, k3, ⟨k4, -⟩, k5⟩
    refine ⟨k1.trans h1, k2.trans h2, k3.trans h3, fun j hjN => ?_⟩
    by_cases he : j = (A.data.get ip.1).cols.get ip.2
    · subst he
      have : appended A (done ++ [ip]) ((A.data.get ip.1).cols.get ip.2) =
          appended A done ((A.data.get ip.1).cols.get ip.2) ++
            [(ip.1, (A.data.get ip.1).vals.get ip.2)] := by
        unfold appended
        simp [List.filter_append]
      rw [this]; exact k4
    · have : appended A (done ++ [ip]) j = appended A done j := by
        unfold appended
        simp [List.filter_append, Ne.symm he]
      rw [this, k5 j he]
      exact h4 j hjN
  · rintro B ⟨h1, h2, h3, h4⟩
    refine ⟨h2, h1, h3, fun j hj => ?_⟩
    have hcols : (appended A sc j).map Prod.fst =
        (sc.filter fun ip => decide ((A.data.get ip.1).cols.get ip.2 = j)).map Prod.fst := by
      simp [appended, Function.comp_def]
    have hinj : ∀ i p p', i < N → p < (A.data.get i).nnz → p' < (A.data.get i).nnz →
        (A.data.get i).cols.get p = (A.data.get i).cols.get p' → p = p' :=
      fun i p p' hi h h' he =>
        (represents_iff.2 hA).wf.col_inj i p p' (by rw [hA.dim]; exact hi) h h' he
    have hg : SRow.Good N (appended A sc j) := by
      constructor
      · rw [hcols]
        refine (hnd.filter _).map_on ?_
        intro x hx y hy hxy
        obtain ⟨hx1, hx2⟩ := List.mem_filter.1 hx
        obtain ⟨hy1, hy2⟩ := List.mem_filter.1 hy
        have m1 := (hmem x).1 hx1
        have m2 := (hmem y).1 hy1
        have c1 : (A.data.get x.1).cols.get x.2 = j := by simpa using hx2
        have c2 : (A.data.get y.1).cols.get y.2 = j := by simpa using hy2
        obtain ⟨x1, x2⟩ := x
        obtain ⟨y1, y2⟩ := y
        simp only at hxy m1 m2 c1 c2
        subst hxy
        rw [hinj x1 x2 y2 m1.1 m1.2 m2.2 (c1.trans c2.symm)]
      · intro p hp
        obtain ⟨q, hq, rfl⟩ := List.mem_map.1 hp
        exact ((hmem q).1 (List.mem_filter.1 hq).1).1
    refine (h4 j hj).holds hg ?_
    intro i hi
    unfold Spec.transpose
    rw [← hA.den hi hj]
    by_cases hst : j ∈ (A.row i).map Prod.fst
    · obtain ⟨p, hp, hpj⟩ := stored_iff.2 hst
      have hin : (i, (A.data.get i).vals.get p) ∈ appended A sc j :=
        List.mem_map.2 ⟨(i, p), List.mem_filter.2 ⟨(hmem (i, p)).2 ⟨hi, hp⟩, by simpa using hpj⟩, rfl⟩
      have hin2 : (j, (A.data.get i).vals.get p) ∈ A.row i :=
        CsrRow.mem_list.2 ⟨p, hp, by rw [hpj]⟩
      rw [SRow.den_of_mem hg.1 hin, SRow.den_of_mem (hA.good hi).1 hin2]
    · rw [SRow.den_of_not_mem hst, SRow.den_of_not_mem]
      rw [hcols]
      intro hm
      obtain ⟨q, hq, rfl⟩ := List.mem_map.1 hm
      obtain ⟨hq1, hq2⟩ := List.mem_filter.1 hq
      have hqj : (A.data.get q.1).cols.get q.2 = j := by simpa using hq2
      exact hst (stored_iff.1 ⟨q.2, ((hmem q).1 hq1).2, hqj⟩)

/-! ## `bml_transpose` -/

/-- Row `r` is `D r` (entries of the transpose) followed by `U r` (entries still to be
transposed). -/
structure TrInv (N : Nat) (a : Spec.Mat R) (D U : Nat → SRow R) : Prop where
  ndD : ∀ r, r < N → SRow.Good N (D r)
  ndU : ∀ r, r < N → SRow.Good N (U r)
  excl : ∀ r c, r < N → c < N → c ∈ (D r).map Prod.fst → r ∉ (U c).map Prod.fst
  val : ∀ r c, r < N → c < N → SRow.den (D r) c + SRow.den (U c) r = a c r

/-- One entry `(j, x)` of row `i` becomes the entry `(i, x)` of row `j` of the transpose. -/
theorem TrInv.move {N : Nat} {a : Spec.Mat R} {D U D' U' : Nat → SRow R} (h : TrInv N a D U)
    {i j : Nat} {x : R} (hi : i < N) (hj : j < N)
    (hD : ∀ r, r < N → (D' r).Perm (if r = j then (i, x) :: D r else D r))
    (hU : ∀ r, r < N → (U r).Perm (if r = i then (j, x) :: U' r else U' r)) : TrInv N a D' U' := by
  have hUi : (U i).Perm ((j, x) :: U' i) := by have := hU i hi; rwa [if_pos rfl] at this
  have hjU : j ∈ (U i).map Prod.fst := by rw [(hUi.map _).mem_iff]; simp
  have hiD : i ∉ (D j).map Prod.fst := fun hm => h.excl j i hj hi hm hjU
  have hjU' : j ∉ (U' i).map Prod.fst := by
    have := (h.ndU i hi).1
    rw [(hUi.map _).nodup_iff] at this
    simpa using (List.nodup_cons.1 this).1
  have hsub : ∀ r, r < N → ∀ c, c ∈ (U' r).map Prod.fst → c ∈ (U r).map Prod.fst := by
    intro r hr c hc
    rw [((hU r hr).map _).mem_iff]
    by_cases he : r = i
    · rw [if_pos he]; simp only [List.map_cons]; exact List.mem_cons_of_mem _ hc
    · rw [if_neg he]; exact hc
  refine ⟨?_, ?_, ?_, ?_⟩
  · intro r hr
    refine SRow.Good.perm (L := if r = j then (i, x) :: D r else D r) ?_ (hD r hr).symm
    by_cases he : r = j
    · subst he
      rw [if_pos rfl]
      refine ⟨?_, ?_⟩
      · simp only [List.map_cons, List.nodup_cons]
        exact ⟨hiD, (h.ndD r hr).1⟩
      · intro p hp
        rcases List.mem_cons.1 hp with rfl | hp
        · exact hi
        · exact (h.ndD r hr).2 p hp
    · rw [if_neg he]; exact h.ndD r hr
  · intro r hr
    have := (h.ndU r hr).perm (hU r hr)
    by_cases he : r = i
    · rw [if_pos he] at this
      exact this.sublist (List.sublist_cons_self _ _)
    · rwa [if_neg he] at this
  · intro r c hr hc hm hm'
    rw [((hD r hr).map _).mem_iff] at hm
    by_cases he : r = j
    · subst he
      rw [if_pos rfl] at hm
      simp only [List.map_cons, List.mem_cons] at hm
      rcases hm with rfl | hm
      · exact hjU' hm'
      · exact h.excl r c hr hc hm (hsub c hc r hm')
    · rw [if_neg he] at hm
      exact h.excl r c hr hc hm (hsub c hc r hm')
  · intro r c hr hc
    have h1 := SRow.den_perm (hD r hr) c
    have h2 := SRow.den_perm (hU c hc) r
    rw [← h.val r c hr hc, h1, h2]
    by_cases he : r = j <;> by_cases he' : c = i
    · simp [he, he']; ring
    · simp [he, he', Ne.symm he']
    · simp [he, he', Ne.symm he]
    · simp [he, he']

/-- The state of the machine and its two lists per row. -/
structure TrRep (N : Nat) (a : Spec.Mat R) (A : Csr R) (nzt : Arr Nat) (D U : Nat → SRow R) :
    Prop where
  inv : TrInv N a D U
  dim : A.N = N
  size : A.data.size = N
  nsize : nzt.size = N
  is : ∀ r, r < N → (A.data.get r).Is (D r ++ U r)
  nz : ∀ r, r < N → nzt.get r = (D r).length

theorem wp_leftStep {N i n M : Nat} {a : Spec.Mat R} {s : TrSt R} (hi : i < N)
    (h : s.A.M = M ∧ ∃ D U, TrRep N a s.A s.nzt D U ∧ (∀ r, r < i → U r = []) ∧
      (U i).length = n + 1 ∧ s.pos1 = (D i).length + (U i).length) :
    (leftStep i s).wp E (fun s' => s'.A.M = M ∧ ∃ D U, TrRep N a s'.A s'.nzt D U ∧
      (∀ r, r < i → U r = []) ∧ (U i).length = n ∧ s'.pos1 = (D i).length + (U i).length) := by
  obtain ⟨A, nzt, pos1⟩ := s
  obtain ⟨hM, D, U, hT, hdone, hUl, hpos⟩ := h
  simp only at hT hpos hM
  obtain ⟨U0, ⟨j, x⟩, hUe⟩ : ∃ U0 p, U i = U0 ++ [p] := by
    rcases List.eq_nil_or_concat (U i) with h | ⟨U0, p, h⟩
    · rw [h] at hUl; simp at hUl
    · exact ⟨U0, p, by simpa using h⟩
  have hU0 : U0.length = n := by rw [hUe] at hUl; simpa using hUl
  have hri : (A.data.get i).Is (D i ++ U0 ++ [(j, x)]) := by
    have := hT.is i hi
    rwa [hUe, ← List.append_assoc] at this
  have hp1 : pos1 - 1 = (D i ++ U0).length := by
    rw [hpos, hUe]; simp only [List.length_append, List.length_singleton]; omega
  have hp1' : pos1 - 1 = (D i).length + U0.length := by rw [hp1]; simp
  obtain ⟨gc, gv⟩ := CsrRow.Is.get_at hri
  have bc := hri.cols_lt
  have bv := hri.vals_lt
  rw [← hp1] at gc gv bc bv
  have hj : j < N := (hT.inv.ndU i hi).2 (j, x) (by rw [hUe]; simp)
  have hUp : (U i).Perm ((j, x) :: U0) := by rw [hUe]; exact List.perm_append_singleton _ _
  have hds : A.data.size = N := hT.size
  have hns : nzt.size = N := hT.nsize
  have hnzi := hT.nz i hi
  have hnzj := hT.nz j hj
  unfold leftStep
  simp only
  rw [Arr.read_ok (by omega), Res.bind_ok, Arr.read_ok bc, Res.bind_ok, gc]
  by_cases hji : j > i
  · have hne : j ≠ i := by omega
    have hne' : i ≠ j := by omega
    rw [if_pos hji, Arr.read_ok (by omega), Res.bind_ok, Arr.read_ok (by omega), Res.bind_ok, hnzj]
    have hrj := hT.is j hj
    have hnnz : (A.data.get j).nnz = (D j).length + (U j).length := by rw [hrj.length]; simp
    obtain ⟨o, e, hs, hn⟩ := CsrRow.findPos_spec hrj.1 i ((A.data.get j).nnz - (D j).length)
      (D j).length (by omega)
    rw [e, Res.bind_ok]
    cases o with
    | some jpos =>
      obtain ⟨k1, k2, k3, -⟩ := hs jpos rfl
      obtain ⟨V1, V2, hVe, hVl⟩ := hrj.split_tail (k := jpos) k1 (by omega)
      rw [k3] at hVe
      generalize hy : (A.data.get j).vals.get jpos = y at hVe
      have hrj' : (A.data.get j).Is (D j ++ V1 ++ (i, y) :: V2) := by
        rwa [hVe, ← List.append_assoc] at hrj
      have hVl' : (D j ++ V1).length = jpos := by rw [← hVl]; simp
      have bv' := hrj'.vals_lt
      rw [hVl'] at bv'
      simp only
      rw [Arr.read_ok bv, Res.bind_ok, Arr.read_ok bv', Res.bind_ok, Arr.write_ok _ bv, Res.bind_ok,
        Arr.write_ok _ bv', Res.bind_ok, Arr.read_ok (by omega), Res.bind_ok, hnzi, gv, hy,
        Res.wp_bind]
      have u1 := CsrRow.is_updVal hri y
      rw [← hp1, hp1'] at u1
      have u2 := CsrRow.is_updVal hrj' x
      rw [hVl', ← hVl] at u2
      rw [hp1']
      refine Res.wp_mono (CsrRow.wp_swap u1) ?_
      rintro ri ⟨Ui, hri2, hUi⟩
      rw [Res.bind_ok, Res.wp_bind, ← hVl]
      refine Res.wp_mono (CsrRow.wp_swap u2) ?_
      rintro rj ⟨Uj, hrj2, hUj⟩
      simp only [Res.wp_bind, Arr.wp_read, Arr.wp_write, Res.wp_pure, hds, hns, hi, hj, true_and]
      refine ⟨hM, upd (upd D j (D j ++ [(i, x)])) i (D i ++ [(j, y)]), upd (upd U i Ui) j Uj,
        ⟨?_, hT.dim, rfl, rfl, ?_, ?_⟩, ?_, ?_, ?_⟩
      · have m1 := hT.inv.move (D' := upd D j (D j ++ [(i, x)])) (U' := upd U i U0) (x := x) hi hj
          (fun r _ => by
            by_cases he : r = j
            · subst he; rw [if_pos rfl, upd_same]; exact List.perm_append_singleton _ _
            · rw [if_neg he, upd_ne _ _ he])
          (fun r _ => by
            by_cases he : r = i
            · subst he; rw [if_pos rfl, upd_same]; exact hUp
            · rw [if_neg he, upd_ne _ _ he])
        refine m1.move (i := j) (j := i) (x := y) hj hi (fun r _ => ?_) (fun r _ => ?_)
        · by_cases he : r = i
          · subst he; rw [if_pos rfl, upd_same, upd_ne _ _ hne']; exact List.perm_append_singleton _ _
          · rw [if_neg he, upd_ne _ _ he]
        · by_cases he : r = j
          · subst he
            rw [if_pos rfl, upd_same, upd_ne _ _ hne, hVe]
            exact List.perm_middle.trans (List.Perm.cons _ hUj.symm)
          · rw [if_neg he, upd_ne _ _ he]
            by_cases he' : r = i
            · subst he'; rw [upd_same, upd_same]; simpa using hUi.symm
            · rw [upd_ne _ _ he', upd_ne _ _ he']
      · intro r hr
        simp only
        by_cases he : r = j
        · subst he
          rw [upd_same, upd_ne _ _ hne, upd_same, upd_same, List.append_assoc]
          exact hrj2
        · rw [upd_ne _ _ he, upd_ne _ _ he]
          by_cases he' : r = i
          · subst he'
            rw [upd_same, upd_same, upd_same, List.append_assoc]; exact hri2
          · rw [upd_ne _ _ he', upd_ne _ _ he', upd_ne _ _ he, upd_ne _ _ he']; exact hT.is r hr
      · intro r hr
        simp only
        by_cases he : r = j
        · subst he
          rw [upd_same, upd_ne _ _ hne, upd_ne _ _ hne, upd_same, hnzj]; simp
        · rw [upd_ne _ _ he]
          by_cases he' : r = i
          · subst he'
            rw [upd_same, upd_same]; simp
          · rw [upd_ne _ _ he', upd_ne _ _ he', upd_ne _ _ he]; exact hT.nz r hr
      · intro r hr
        rw [upd_ne _ _ (by omega), upd_ne _ _ (by omega)]; exact hdone r hr
      · rw [upd_ne _ _ hne', upd_same, hUi.length_eq]; simpa using hU0
      · rw [upd_same, upd_ne _ _ hne', upd_same, hUi.length_eq, hpos, hUe]
        simp only [List.length_append, List.length_singleton, List.append_nil]; omega
    | none =>
      simp only
      rw [Arr.read_ok bv, Res.bind_ok, gv, Res.wp_bind]
      refine Res.wp_mono (CsrRow.wp_setNew hrj i x) ?_
      rintro rj ⟨hrj1, -⟩
      have hl1 : rj.nnz - 1 = (D j).length + (U j).length := by
        rw [hrj1.length]; simp
      rw [Res.bind_ok, hl1, Res.wp_bind]
      refine Res.wp_mono (CsrRow.wp_swap (U2 := []) hrj1) ?_
      rintro rj2 ⟨Uj, hrj2, hUj⟩
      simp only [List.append_nil] at hUj
      simp only [Res.wp_bind, Arr.wp_write, Res.wp_pure, hds, hns, hi, hj, true_and]
      refine ⟨hM, upd D j (D j ++ [(i, x)]), upd (upd U i U0) j Uj,
        ⟨?_, hT.dim, rfl, rfl, ?_, ?_⟩, ?_, ?_, ?_⟩
      · refine hT.inv.move (i := i) (j := j) (x := x) hi hj (fun r _ => ?_) (fun r _ => ?_)
        · by_cases he : r = j
          · subst he; rw [if_pos rfl, upd_same]; exact List.perm_append_singleton _ _
          · rw [if_neg he, upd_ne _ _ he]
        · by_cases he : r = i
          · subst he; rw [if_pos rfl, upd_ne _ _ hne', upd_same]; exact hUp
          · rw [if_neg he]
            by_cases he' : r = j
            · subst he'; rw [upd_same]; exact hUj.symm
            · rw [upd_ne _ _ he', upd_ne _ _ he]
      · intro r hr
        simp only
        by_cases he : r = i
        · subst he
          rw [upd_same, upd_ne _ _ hne', upd_ne _ _ hne', upd_same]
          exact hri.dropLast
        · rw [upd_ne _ _ he]
          by_cases he' : r = j
          · subst he'
            rw [upd_same, upd_same, upd_same, List.append_assoc]; exact hrj2
          · rw [upd_ne _ _ he', upd_ne _ _ he', upd_ne _ _ he', upd_ne _ _ he]; exact hT.is r hr
      · intro r hr
        simp only
        by_cases he : r = j
        · subst he; rw [upd_same, upd_same]; simp
        · rw [upd_ne _ _ he, upd_ne _ _ he]; exact hT.nz r hr
      · intro r hr
        rw [upd_ne _ _ (by omega), upd_ne _ _ (by omega)]; exact hdone r hr
      · rw [upd_ne _ _ hne', upd_same]; exact hU0
      · rw [upd_ne _ _ hne', upd_ne _ _ hne', upd_same]; exact hp1'
  · rw [if_neg hji]
    by_cases hlt : j < i
    · have hne : j ≠ i := by omega
      have hne' : i ≠ j := by omega
      have hrj : (A.data.get j).Is (D j) := by
        have := hT.is j hj
        rwa [hdone j hlt, List.append_nil] at this
      rw [if_pos hlt, Arr.read_ok (by omega), Res.bind_ok, Arr.read_ok bv, Res.bind_ok, gv,
        Res.wp_bind]
      refine Res.wp_mono (CsrRow.wp_setNew hrj i x) ?_
      rintro rj ⟨hrj1, -⟩
      rw [Arr.read_ok (by omega), Res.bind_ok, hnzj]
      simp only [Res.wp_bind, Arr.wp_write, Res.wp_pure, hds, hns, hi, hj, true_and]
      refine ⟨hM, upd D j (D j ++ [(i, x)]), upd U i U0,
        ⟨?_, hT.dim, rfl, rfl, ?_, ?_⟩, ?_, ?_, ?_⟩
      · refine hT.inv.move (i := i) (j := j) (x := x) hi hj (fun r _ => ?_) (fun r _ => ?_)
        · by_cases he : r = j
          · subst he; rw [if_pos rfl, upd_same]; exact List.perm_append_singleton _ _
          · rw [if_neg he, upd_ne _ _ he]
        · by_cases he : r = i
          · subst he; rw [if_pos rfl, upd_same]; exact hUp
          · rw [if_neg he, upd_ne _ _ he]
      · intro r hr
        simp only
        by_cases he : r = i
        · subst he
          rw [upd_same, upd_ne _ _ hne', upd_same]
          exact hri.dropLast
        · rw [upd_ne _ _ he]
          by_cases he' : r = j
          · subst he'
            rw [upd_same, upd_same, upd_ne _ _ he, hdone r hlt, List.append_nil]; exact hrj1
          · rw [upd_ne _ _ he', upd_ne _ _ he', upd_ne _ _ he]; exact hT.is r hr
      · intro r hr
        simp only
        by_cases he : r = j
        · subst he; rw [upd_same, upd_same]; simp
        · rw [upd_ne _ _ he, upd_ne _ _ he]; exact hT.nz r hr
      · intro r hr
        rw [upd_ne _ _ (by omega)]; exact hdone r hr
      · rw [upd_same]; exact hU0
      · rw [upd_ne _ _ hne', upd_same]; exact hp1'
    · have he : j = i := by omega
      subst he
      rw [if_neg hlt, Arr.read_ok (by omega), Res.bind_ok, hnzi, Res.wp_bind, hp1']
      refine Res.wp_mono (CsrRow.wp_swap hri) ?_
      rintro ri ⟨Ui, hri2, hUi⟩
      simp only [List.append_nil] at hUi
      simp only [Res.wp_bind, Arr.wp_write, Res.wp_pure, hds, hns, hi, true_and]
      refine ⟨hM, upd D j (D j ++ [(j, x)]), upd U j Ui,
        ⟨?_, hT.dim, rfl, rfl, ?_, ?_⟩, ?_, ?_, ?_⟩
      · refine hT.inv.move (i := j) (j := j) (x := x) hi hj (fun r _ => ?_) (fun r _ => ?_)
        · by_cases he : r = j
          · subst he; rw [if_pos rfl, upd_same]; exact List.perm_append_singleton _ _
          · rw [if_neg he, upd_ne _ _ he]
        · by_cases he : r = j
          · subst he; rw [if_pos rfl, upd_same]; exact hUp.trans (List.Perm.cons _ hUi.symm)
          · rw [if_neg he, upd_ne _ _ he]
      · intro r hr
        simp only
        by_cases he : r = j
        · subst he
          rw [upd_same, upd_same, upd_same, List.append_assoc]; exact hri2
        · rw [upd_ne _ _ he, upd_ne _ _ he, upd_ne _ _ he]; exact hT.is r hr
      · intro r hr
        simp only
        by_cases he : r = j
        · subst he; rw [upd_same, upd_same]; simp
        · rw [upd_ne _ _ he, upd_ne _ _ he]; exact hT.nz r hr
      · intro r hr
        rw [upd_ne _ _ (by omega)]; exact hdone r hr
      · rw [upd_same, hUi.length_eq]; exact hU0
      · rw [upd_same, upd_same, hUi.length_eq, hpos, hUe]
        simp only [List.length_append, List.length_singleton]; omega

theorem wp_transposeInPlace {A : Csr R} {N : Nat} {a : Spec.Mat R} (hA : A.Rep N a) :
    A.transposeInPlace.wp E (fun B => B.M = A.M ∧ B.Rep N (Spec.transpose a)) := by
  unfold transposeInPlace
  rw [Res.wp_bind, hA.dim]
  refine wp_loop' (fun i (st : Csr R × Arr Nat) => st.1.M = A.M ∧ ∃ D U,
    TrRep N a st.1 st.2 D U ∧ ∀ r, r < i → U r = []) ?_ ?_ ?_
  · refine ⟨rfl, fun _ => [], A.row, ⟨⟨?_, ?_, ?_, ?_⟩, hA.dim, hA.size, rfl, ?_, fun _ _ => rfl⟩, ?_⟩
    · intro r _; exact SRow.good_nil N
    · intro r hr; exact hA.good hr
    · intro r c _ _ h; simp at h
    · intro r c hr hc; rw [hA.den hc hr]; simp
    · intro r hr; simpa using hA.is hr
    · intro r hr; omega
  · rintro i hi ⟨A1, nzt⟩ ⟨hM, D, U, hT, hdone⟩
    simp only at hM hT
    unfold leftRow
    simp only
    have hsz := hT.size
    rw [Arr.read_ok (by omega), Res.bind_ok, Res.wp_bind]
    have hlen : (A1.data.get i).nnz = (D i).length + (U i).length := by
      rw [(hT.is i hi).length]; simp
    refine Res.wp_mono (wp_whileLoop (fun n (s : TrSt R) => s.A.M = A.M ∧ ∃ D U,
      TrRep N a s.A s.nzt D U ∧
      (∀ r, r < i → U r = []) ∧ (U i).length = n ∧ s.pos1 = (D i).length + (U i).length) ?_
      (fun n s hs => wp_leftStep hi hs) (A1.data.get i).nnz (U i).length _ (by omega)
      ⟨hM, D, U, hT, hdone, rfl, hlen⟩) ?_
    · rintro n s ⟨-, D, U, hT, -, h1, h2⟩
      rw [hT.nz i hi, h2]
      simp only [decide_eq_true_eq]
      omega
    · rintro s ⟨g0, D, U, g1, g2, g3, g4⟩
      rw [Res.wp_pure]
      refine ⟨g0, D, U, g1, fun r hr => ?_⟩
      by_cases he : r = i
      · subst he; exact List.length_eq_zero_iff.1 g3
      · exact g2 r (by omega)
  · rintro ⟨A1, nzt⟩ ⟨hM, D, U, hT, hdone⟩
    rw [Res.wp_pure]
    refine ⟨hM, hT.dim, hT.size, fun r hr => ?_⟩
    have := hT.is r hr
    rw [hdone r hr, List.append_nil] at this
    refine this.holds (hT.inv.ndD r hr) (fun c hc => ?_)
    have := hT.inv.val r c hr hc
    rw [hdone c hc] at this
    simpa [Spec.transpose] using this

end Csr

end Bml
