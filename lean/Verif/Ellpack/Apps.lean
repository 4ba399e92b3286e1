import Verif.Ellpack.Stored
import Verif.Ellpack.Model4

/-!
# ELLPACK: sequences of appends
-/

set_option linter.unusedSectionVars false

namespace Bml

namespace Ell

variable {R : Type} [CommRing R]

/-- Append the entries `ws` (row, column, value), one after the other. -/
def apps (ws : List (Nat × Nat × R)) (A : Ell R) : Ell R :=
  ws.foldl (fun A w => A.app w.1 w.2.1 w.2.2) A

/-- The part of `ws` that goes to row `i`. -/
def rowOf (ws : List (Nat × Nat × R)) (i : Nat) : SRow R :=
  (ws.filter (fun w => decide (w.1 = i))).map Prod.snd

theorem rowOf_append (ws ws' : List (Nat × Nat × R)) (i : Nat) :
    rowOf (ws ++ ws') i = rowOf ws i ++ rowOf ws' i := by
  simp [rowOf]

theorem mem_rowOf {ws : List (Nat × Nat × R)} {i : Nat} {p : Nat × R} :
    p ∈ rowOf ws i ↔ (i, p) ∈ ws := by
  unfold rowOf
  rw [List.mem_map]
  constructor
  · rintro ⟨⟨r, q⟩, h, rfl⟩
    obtain ⟨h1, h2⟩ := List.mem_filter.1 h
    simp at h2; subst h2; exact h1
  · intro h
    exact ⟨(i, p), List.mem_filter.2 ⟨h, by simp⟩, rfl⟩

theorem rowOf_nodup {ws : List (Nat × Nat × R)}
    (h : (ws.map (fun w => (w.1, w.2.1))).Nodup) (i : Nat) :
    ((rowOf ws i).map Prod.fst).Nodup := by
  induction ws with
  | nil => simp [rowOf]
  | cons w ws ih =>
    simp only [List.map_cons, List.nodup_cons] at h
    unfold rowOf
    by_cases he : w.1 = i
    · rw [List.filter_cons_of_pos (by simpa using he)]
      simp only [List.map_cons, List.nodup_cons]
      refine ⟨?_, ih h.2⟩
      intro hm
      obtain ⟨p, hp, hpe⟩ := List.mem_map.1 hm
      apply h.1
      have := mem_rowOf.1 hp
      exact List.mem_map.2 ⟨_, this, by simp only; rw [hpe, he]⟩
    · rw [List.filter_cons_of_neg (by simpa using he)]
      exact ih h.2

/-- What a sequence of appends does, row by row. -/
theorem apps_spec {N : Nat} : ∀ (ws : List (Nat × Nat × R)) (A : Ell R), A.Shape → A.N = N →
    (∀ i, i < N → A.nnz.get i ≤ A.M) → (∀ w ∈ ws, w.1 < N) →
    (∀ i, i < N → A.nnz.get i + (rowOf ws i).length ≤ A.M) →
    (apps ws A).Shape ∧ (apps ws A).N = N ∧ (apps ws A).M = A.M ∧
      (∀ i, i < N → (apps ws A).nnz.get i = A.nnz.get i + (rowOf ws i).length) ∧
      ∀ i, i < N → (apps ws A).row i = A.row i ++ rowOf ws i := by
  intro ws
  induction ws with
  | nil =>
    intro A hS hN hle _ _
    exact ⟨hS, hN, rfl, fun i _ => by simp [apps, rowOf], fun i _ => by simp [apps, rowOf]⟩
  | cons w ws ih =>
    intro A hS hN hle hw hc
    obtain ⟨r, c, v⟩ := w
    have hr : r < N := hw (r, c, v) (by simp)
    have hrow : ∀ i, (rowOf ((r, c, v) :: ws) i).length =
        (rowOf ws i).length + if i = r then 1 else 0 := by
      intro i
      unfold rowOf
      by_cases he : r = i
      · rw [List.filter_cons_of_pos (by simpa using he)]; simp [he]
      · rw [List.filter_cons_of_neg (by simpa using he)]; simp [Ne.symm he]
    have hcap : A.nnz.get r < A.M := by
      have := hc r hr
      rw [hrow] at this
      simp at this; omega
    have hnz : ∀ i, (A.app r c v).nnz.get i = A.nnz.get i + if i = r then 1 else 0 :=
      app_nnz A r c v
    have hMM : (A.app r c v).M = A.M := rfl
    obtain ⟨g1, g2, g3, g4, g5⟩ := ih (A.app r c v) (app_shape hS r c v) hN
      (fun i hi => by
        have := hc i hi
        rw [hrow] at this
        rw [hnz, hMM]; omega)
      (fun w h => hw w (by simp [h]))
      (fun i hi => by
        have := hc i hi
        rw [hrow] at this
        rw [hnz, hMM]; omega)
    refine ⟨g1, g2, g3, fun i hi => ?_, fun i hi => ?_⟩
    · have := g4 i hi
      rw [hnz] at this
      rw [hrow]
      show (apps ws (A.app r c v)).nnz.get i = _
      omega
    · show (apps ws (A.app r c v)).row i = _
      rw [g5 i hi]
      unfold rowOf
      by_cases he : r = i
      · subst he
        rw [List.filter_cons_of_pos (by simp), app_row hcap]
        simp
      · rw [List.filter_cons_of_neg (by simpa using he), app_row_ne hcap (Ne.symm he) (hle i hi)]

theorem apps_snoc (ws : List (Nat × Nat × R)) (r c : Nat) (v : R) (A : Ell R) :
    apps (ws ++ [(r, c, v)]) A = (apps ws A).app r c v := by
  simp [apps]

/-- Running a list of operations each of which appends an entry. -/
theorem forList_apps {ι : Type} {N : Nat} (ent : ι → Nat × Nat × R) (op : ι → Ell R → Res (Ell R))
    (hop : ∀ x (A : Ell R), A.Shape → A.N = N → (ent x).1 < N → A.nnz.get (ent x).1 < A.M →
      op x A = .ok (A.app (ent x).1 (ent x).2.1 (ent x).2.2)) :
    ∀ (l : List ι) (A : Ell R), A.Shape → A.N = N → (∀ i, i < N → A.nnz.get i ≤ A.M) →
      (∀ x ∈ l, (ent x).1 < N) →
      (∀ i, i < N → A.nnz.get i + (rowOf (l.map ent) i).length ≤ A.M) →
      forList l A op = .ok (apps (l.map ent) A) := by
  intro l
  induction l with
  | nil => intro A _ _ _ _ _; rfl
  | cons x l ih =>
    intro A hS hN hle hw hc
    have hr := hw x (by simp)
    have hrow : ∀ i, (rowOf ((x :: l).map ent) i).length =
        (rowOf (l.map ent) i).length + if i = (ent x).1 then 1 else 0 := by
      intro i
      unfold rowOf
      rw [List.map_cons]
      by_cases he : (ent x).1 = i
      · rw [List.filter_cons_of_pos (by simpa using he)]; simp [he]
      · rw [List.filter_cons_of_neg (by simpa using he)]; simp [Ne.symm he]
    have hcap : A.nnz.get (ent x).1 < A.M := by
      have := hc _ hr
      rw [hrow] at this
      simp at this; omega
    have hMM : (A.app (ent x).1 (ent x).2.1 (ent x).2.2).M = A.M := rfl
    rw [forList_cons, hop x A hS hN hr hcap, Res.bind_ok,
      ih _ (app_shape hS _ _ _) hN (fun i hi => by
        have := hc i hi
        rw [hrow] at this
        rw [app_nnz, hMM]; omega) (fun y hy => hw y (by simp [hy]))
        (fun i hi => by
        have := hc i hi
        rw [hrow] at this
        rw [app_nnz, hMM]; omega)]
    rfl

/-- Rows after appends: representation. -/
theorem apps_rep {N : Nat} {A : Ell R} {a b : Spec.Mat R} (hA : A.Rep N a)
    {ws : List (Nat × Nat × R)} (hw : ∀ w ∈ ws, w.1 < N ∧ w.2.1 < N ∧ ¬ A.Stored w.1 w.2.1)
    (hn : (ws.map (fun w => (w.1, w.2.1))).Nodup)
    (hc : ∀ i, i < N → A.nnz.get i + (rowOf ws i).length ≤ A.M)
    (hb : ∀ i j, i < N → j < N → b i j = a i j + (rowOf ws i).den j) :
    (apps ws A).Rep N b := by
  obtain ⟨g1, g2, g3, g4, g5⟩ := apps_spec ws A hA.shape hA.dim hA.le (fun w h => (hw w h).1) hc
  refine ⟨g1, g2, fun i hi => ?_, fun i hi => ?_, fun i j hi hj => ?_⟩
  · rw [g4 i hi, g3]; exact hc i hi
  · rw [g5 i hi]
    refine ⟨?_, ?_⟩
    · rw [List.map_append, List.nodup_append]
      refine ⟨(hA.good i hi).1, rowOf_nodup hn i, ?_⟩
      rintro x hx y hy rfl
      obtain ⟨p, hp, rfl⟩ := List.mem_map.1 hy
      have := hw _ (mem_rowOf.1 hp)
      exact this.2.2 (stored_iff.2 hx)
    · intro p hp
      rcases List.mem_append.1 hp with hp | hp
      · exact (hA.good i hi).2 p hp
      · exact (hw _ (mem_rowOf.1 hp)).2.1
  · rw [g5 i hi, SRow.den_append, hA.den i j hi hj, hb i j hi hj]

/-- The number of entries for row `i` is bounded by the number of columns they may have. -/
theorem rowOf_length_le {N : Nat} {ws : List (Nat × Nat × R)}
    (hn : (ws.map (fun w => (w.1, w.2.1))).Nodup) (i : Nat) (P : Nat → Prop) [DecidablePred P]
    (h : ∀ c v, (i, c, v) ∈ ws → c < N ∧ P c) :
    (rowOf ws i).length ≤ ((Finset.range N).filter P).card := by
  rw [← List.length_map Prod.fst, ← List.toFinset_card_of_nodup (rowOf_nodup hn i)]
  apply Finset.card_le_card
  intro c hc
  obtain ⟨p, hp, rfl⟩ := List.mem_map.1 (List.mem_toFinset.1 hc)
  have := h p.1 p.2 (mem_rowOf.1 hp)
  simpa using this

/-! ## Transposition into a new matrix -/

/-- The entry that slot `(i,j)` contributes to the transpose. -/
def trEntry (A : Ell R) (ij : Nat × Nat) : Nat × Nat × R :=
  (A.idx.get (ij.1 * A.M + ij.2), ij.1, A.val.get (ij.1 * A.M + ij.2))

theorem mem_slots {A : Ell R} {ij : Nat × Nat} :
    ij ∈ A.slots ↔ ij.1 < A.N ∧ ij.2 < A.nnz.get ij.1 := by
  obtain ⟨i, j⟩ := ij
  simp only [slots, List.mem_flatMap, List.mem_range, List.mem_map, Prod.mk.injEq]
  constructor
  · rintro ⟨i', h1, j', h2, rfl, rfl⟩; exact ⟨h1, h2⟩
  · rintro ⟨h1, h2⟩; exact ⟨i, h1, j, h2, rfl, rfl⟩

theorem slots_nodup (A : Ell R) : A.slots.Nodup := by
  unfold slots
  rw [List.nodup_flatMap]
  refine ⟨fun i _ => List.Nodup.map (fun a b h => by simpa using h) List.nodup_range, ?_⟩
  refine List.Pairwise.imp ?_ List.nodup_range
  intro i i' hne x hx hy
  obtain ⟨_, _, rfl⟩ := List.mem_map.1 hx
  obtain ⟨_, _, h⟩ := List.mem_map.1 hy
  exact hne (by simpa using (congrArg Prod.fst h).symm)

theorem slot_inj {N : Nat} {A : Ell R} {a : Spec.Mat R} (hA : A.Rep N a) {i j j' : Nat}
    (hi : i < N) (hj : j < A.nnz.get i) (hj' : j' < A.nnz.get i)
    (h : A.idx.get (i * A.M + j) = A.idx.get (i * A.M + j')) : j = j' :=
  (represents_iff.2 hA).wf.col_inj i j j' (by rw [hA.dim]; exact hi) hj hj' h

theorem transposeNew_spec {N : Nat} {A : Ell R} {a : Spec.Mat R} (hA : A.Rep N a)
    {sc : List (Nat × Nat)} (hsc : sc.Perm A.slots) (jv : Nat → R) (ji : Nat → Nat)
    (hfit : ∀ c, c < N → ((Finset.range N).filter (fun i => A.Stored i c)).card ≤ A.M) :
    ∃ B, transposeNew A sc jv ji = .ok B ∧ B.M = A.M ∧ B.Rep N (Spec.transpose a) ∧
      ∀ i j, i < N → j < N → (B.Stored i j ↔ A.Stored j i) := by
  have hd := hA.dim
  have hmem : ∀ ij, ij ∈ sc ↔ ij.1 < N ∧ ij.2 < A.nnz.get ij.1 := by
    intro ij; rw [hsc.mem_iff, mem_slots, hd]
  have hnd : sc.Nodup := hsc.nodup_iff.2 A.slots_nodup
  have hentN : ∀ ij ∈ sc, (A.trEntry ij).1 < N := by
    intro ij h
    obtain ⟨h1, h2⟩ := (hmem ij).1 h
    exact (hA.good ij.1 h1).2 _ (mem_rowPre.2 ⟨ij.2, h2, rfl⟩)
  have hkey : ((sc.map A.trEntry).map (fun w => (w.1, w.2.1))).Nodup := by
    rw [List.map_map]
    refine List.Nodup.map_on ?_ hnd
    rintro ⟨i, j⟩ hx ⟨i', j'⟩ hy h
    simp only [Function.comp, trEntry, Prod.mk.injEq] at h
    obtain ⟨h1, rfl⟩ := h
    obtain ⟨hi, hj⟩ := (hmem _).1 hx
    obtain ⟨_, hj'⟩ := (hmem _).1 hy
    have := slot_inj hA hi hj hj' h1
    simp only at this
    rw [this]
  have hws : ∀ r c v, (r, c, v) ∈ sc.map A.trEntry ↔ c < N ∧ (r, v) ∈ A.row c := by
    intro r c v
    rw [List.mem_map]
    constructor
    · rintro ⟨⟨i, j⟩, h, he⟩
      simp only [trEntry, Prod.mk.injEq] at he
      obtain ⟨rfl, rfl, rfl⟩ := he
      obtain ⟨h1, h2⟩ := (hmem _).1 h
      exact ⟨h1, mem_rowPre.2 ⟨j, h2, rfl⟩⟩
    · rintro ⟨h1, h2⟩
      obtain ⟨j, hj, he⟩ := mem_rowPre.1 h2
      refine ⟨(c, j), (hmem _).2 ⟨h1, hj⟩, ?_⟩
      simp only [trEntry, Prod.mk.injEq, true_and]
      simp only [Prod.mk.injEq] at he
      exact ⟨he.1, he.2⟩
  have hB0 : (noinit A.N A.M jv ji : Ell R).Shape := ⟨rfl, rfl, rfl⟩
  have hroom : ∀ i, i < N → (noinit A.N A.M jv ji : Ell R).nnz.get i +
      (rowOf (sc.map A.trEntry) i).length ≤ A.M := by
    intro i hi
    show 0 + _ ≤ _
    rw [Nat.zero_add]
    refine le_trans (rowOf_length_le (N := N) hkey i (fun c => A.Stored c i) ?_) (hfit i hi)
    intro c v h
    obtain ⟨h1, h2⟩ := (hws i c v).1 h
    exact ⟨h1, stored_iff.2 (List.mem_map.2 ⟨_, h2, rfl⟩)⟩
  have hrun : forList sc (noinit A.N A.M jv ji) (fun ij B => transposeStep A ij B) =
      .ok (apps (sc.map A.trEntry) (noinit A.N A.M jv ji)) := by
    -- the entries of `sc` are slots of `A`
    have key : ∀ (l : List (Nat × Nat)), (∀ x ∈ l, x ∈ sc) → ∀ B : Ell R, 
        forList l B (fun ij B => transposeStep A ij B) =
        forList l B (fun ij B => B.setElementNew (A.trEntry ij).1 (A.trEntry ij).2.1
          (A.trEntry ij).2.2) := by
      intro l
      induction l with
      | nil => intro _ B; rfl
      | cons x l ih =>
        intro hl B
        rw [forList_cons, forList_cons]
        have hx := (hmem x).1 (hl x (by simp))
        have hle := hA.le _ hx.1
        have : transposeStep A x B = B.setElementNew (A.trEntry x).1 (A.trEntry x).2.1
          (A.trEntry x).2.2 := by
          unfold transposeStep setElementNew
          rw [read_idx hA.shape (by omega) (by omega), Res.bind_ok,
            read_val hA.shape (by omega) (by omega)]
          rfl
        rw [this]
        congr 1
        funext B'
        exact ih (fun y hy => hl y (by simp [hy])) B'
    rw [key sc (fun _ h => h)]
    exact forList_apps (N := N) A.trEntry _
      (fun x B hS hN hr hcap => setElementNew_append hS (by omega) _ hcap) sc _ hB0 hd
      (fun i _ => Nat.zero_le _) hentN hroom
  refine ⟨_, hrun, ?_, ?_, ?_⟩
  · obtain ⟨_, _, g3, _, _⟩ := apps_spec (N := N) (sc.map A.trEntry)
      (noinit A.N A.M jv ji) hB0 hd (fun i _ => Nat.zero_le _)
      (fun w hw => by obtain ⟨x, hx, rfl⟩ := List.mem_map.1 hw; exact hentN x hx) hroom
    exact g3
  · refine apps_rep (a := fun _ _ => 0) ?_ ?_ hkey hroom ?_
    · refine ⟨hB0, hd, fun i _ => Nat.zero_le _, fun i _ => ?_, fun i j _ _ => ?_⟩
      · have : (noinit A.N A.M jv ji : Ell R).row i = [] := rfl
        rw [this]; exact SRow.good_nil N
      · have : (noinit A.N A.M jv ji : Ell R).row i = [] := rfl
        rw [this]; simp
    · rintro ⟨r, c, v⟩ hw
      obtain ⟨h1, h2⟩ := (hws r c v).1 hw
      refine ⟨(hA.good c h1).2 _ h2, h1, ?_⟩
      rintro ⟨k, hk, _⟩
      exact absurd hk (Nat.not_lt_zero _)
    · intro i j hi hj
      rw [zero_add]
      unfold Spec.transpose
      rw [← hA.den j i hj hi]
      by_cases hm : i ∈ (A.row j).map Prod.fst
      · obtain ⟨p, hp, rfl⟩ := List.mem_map.1 hm
        rw [SRow.den_of_mem (hA.good j hj).1 (v := p.2) hp]
        exact (SRow.den_of_mem (rowOf_nodup hkey _) (mem_rowOf.2 ((hws _ _ _).2 ⟨hj, hp⟩))).symm
      · rw [SRow.den_of_not_mem hm, SRow.den_of_not_mem]
        intro hm'
        obtain ⟨p, hp, rfl⟩ := List.mem_map.1 hm'
        exact hm (List.mem_map.2 ⟨_, ((hws _ _ _).1 (mem_rowOf.1 hp)).2, rfl⟩)
  · intro i j hi hj
    obtain ⟨_, _, _, _, g5⟩ := apps_spec (N := N) (sc.map A.trEntry)
      (noinit A.N A.M jv ji) hB0 hd (fun i _ => Nat.zero_le _)
      (fun w hw => by obtain ⟨x, hx, rfl⟩ := List.mem_map.1 hw; exact hentN x hx) hroom
    rw [stored_iff, g5 i hi]
    have : (noinit A.N A.M jv ji : Ell R).row i = [] := rfl
    rw [this, List.nil_append, stored_iff]
    constructor
    · intro hm'
      obtain ⟨p, hp, rfl⟩ := List.mem_map.1 hm'
      exact List.mem_map.2 ⟨_, ((hws _ _ _).1 (mem_rowOf.1 hp)).2, rfl⟩
    · intro hm
      obtain ⟨p, hp, rfl⟩ := List.mem_map.1 hm
      exact List.mem_map.2 ⟨_, mem_rowOf.2 ((hws p.1 j p.2).2 ⟨hj, hp⟩), rfl⟩

end Ell

end Bml
