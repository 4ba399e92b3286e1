import Verif.Ellpack.TransposeInPlace

/-!
# ELLPACK adjungate: mirroring one triangle, under every interleaving of the rows
-/

set_option linter.unusedSectionVars false

namespace Bml

namespace Ell

variable {R : Type} [CommRing R] {E : Prop}

/-- The state during `adjungate`: the entries appended so far. -/
structure AdjInv (N : Nat) (conj : R → R) (sel : Nat → Nat → Bool) (A0 : Ell R) (done : List Nat)
    (ws : List (Nat × Nat × R)) (pc : Nat → AdjPc) : Prop where
  key : (ws.map (fun w => (w.1, w.2.1))).Nodup
  sound : ∀ r c v, (r, c, v) ∈ ws → r < N ∧ c < N ∧ sel c r = true ∧
    ∃ j j' l w, (A0.row c)[j]? = some (r, w) ∧ v = conj w ∧ pc c = .at j' l ∧ j < j'
  range : ∀ c, c < N → ∀ j l, pc c = .at j l → (A0.row c).length ≤ l ∧
    l ≤ (A0.row c).length + (rowOf ws c).length
  compl : ∀ c, c < N → ∀ j l, pc c = .at j l → ∀ j' r w, j' < j →
    (A0.row c)[j']? = some (r, w) → sel c r = true → (r, c, conj w) ∈ ws
  cnt0 : ∀ c, pc c = .idle → done.count c = 0
  cnt : ∀ c j l, pc c = .at j l → done.count c ≤ j + 1 ∨ l ≤ j

variable {N : Nat} {conj : R → R} {sel : Nat → Nat → Bool} {A0 : Ell R} {a : Spec.Mat R}

/-- The room needed. -/
def AdjFits (N : Nat) (sel : Nat → Nat → Bool) (A0 : Ell R) : Prop :=
  ∀ r, r < N → A0.nnz.get r +
    ((Finset.range N).filter (fun c => sel c r = true ∧ A0.Stored c r)).card ≤ A0.M

theorem mem_of_getElem? {α : Type} {l : List α} {k : Nat} {x : α} (h : l[k]? = some x) : x ∈ l :=
  List.mem_of_getElem? h

theorem AdjInv.room {done : List Nat} {ws : List (Nat × Nat × R)} {pc : Nat → AdjPc}
    (h : AdjInv N conj sel A0 done ws pc) (hfit : AdjFits N sel A0) {i : Nat} (hi : i < N) :
    A0.nnz.get i + (rowOf ws i).length ≤ A0.M := by
  refine le_trans (Nat.add_le_add_left (rowOf_length_le (N := N) h.key i
    (fun c => sel c i = true ∧ A0.Stored c i) ?_) _) (hfit i hi)
  intro c v hm
  obtain ⟨_, hc, hs, j, j', l, w, hj, _⟩ := h.sound i c v hm
  exact ⟨hc, hs, stored_iff.2 (List.mem_map.2 ⟨_, List.mem_of_getElem? hj, rfl⟩)⟩

theorem AdjInv.rows {done : List Nat} {ws : List (Nat × Nat × R)} {pc : Nat → AdjPc}
    (hA : A0.Rep N a) (h : AdjInv N conj sel A0 done ws pc) (hfit : AdjFits N sel A0) :
    Rows (apps ws A0) N A0.M (fun i => A0.row i ++ rowOf ws i) := by
  obtain ⟨g1, g2, g3, g4, g5⟩ := apps_spec ws A0 hA.shape hA.dim hA.le
    (fun w hw => (h.sound w.1 w.2.1 w.2.2 hw).1) (fun i hi => h.room hfit hi)
  exact ⟨g1, g2, g3, fun r hr => by rw [g4 r hr]; exact h.room hfit hr, g5⟩

theorem row_getElem?_inj {N : Nat} {A : Ell R} (hA : A.Rep N a) {i : Nat} (hi : i < N)
    {j j' : Nat} {r : Nat} {w w' : R} (h : (A.row i)[j]? = some (r, w))
    (h' : (A.row i)[j']? = some (r, w')) : j = j' := by
  have hn := (hA.good i hi).1
  have l1 := getElem?_lt_some h
  have l2 := getElem?_lt_some h'
  have e1 : ((A.row i).map Prod.fst)[j]? = some r := by rw [List.getElem?_map, h]; rfl
  have e2 : ((A.row i).map Prod.fst)[j']? = some r := by rw [List.getElem?_map, h']; rfl
  exact (List.getElem?_inj (by simpa using l1) hn).1 (by rw [e1, e2])

/-- One step of one thread. -/
theorem wp_adjStep (hA : A0.Rep N a) (hfit : AdjFits N sel A0)
    (hasym : ∀ i j, sel i j = true → sel j i = false)
    (hlock : ∀ i j, i < N → A0.Stored i j → sel i j = true → j < A0.M)
    {done : List Nat} {ws : List (Nat × Nat × R)} {pc : Nat → AdjPc} {i : Nat} (hi : i < N)
    (h : AdjInv N conj sel A0 done ws pc) :
    (adjStep conj sel i (apps ws A0, pc)).wp E (fun st => ∃ ws', st.1 = apps ws' A0 ∧
      AdjInv N conj sel A0 (done ++ [i]) ws' st.2) := by
  have hR := h.rows hA hfit
  have hcount : ∀ c, (done ++ [i]).count c = done.count c + if c = i then 1 else 0 := by
    intro c
    rw [List.count_append, List.count_singleton]
    by_cases hc : c = i
    · subst hc; simp
    · have : ¬ (i = c) := fun e => hc e.symm
      simp [hc, this]
  unfold adjStep
  simp only []
  cases hpc : pc i with
  | idle =>
    simp only []
    rw [hR.read_nnz hi, Res.bind_ok, Res.pure_eq, Res.wp_ok]
    refine ⟨ws, rfl, h.key, ?_, ?_, ?_, ?_, ?_⟩
    · intro r c v hm
      obtain ⟨h1, h2, h3, j, j', l, w, h4, h5, h6, h7⟩ := h.sound r c v hm
      refine ⟨h1, h2, h3, j, j', l, w, h4, h5, ?_, h7⟩
      have hc : c ≠ i := by rintro rfl; rw [hpc] at h6; cases h6
      simp only [upd_ne _ _ hc]; exact h6
    · intro c hc j l hcl
      by_cases he : c = i
      · subst he
        simp only [upd_same] at hcl
        injection hcl with e1 e2
        subst e1 e2
        simp
      · simp only [upd_ne _ _ he] at hcl; exact h.range c hc j l hcl
    · intro c hc j l hcl
      by_cases he : c = i
      · subst he
        simp only [upd_same] at hcl
        injection hcl with e1 e2
        subst e1 e2
        intro j' r w hj'; omega
      · simp only [upd_ne _ _ he] at hcl; exact h.compl c hc j l hcl
    · intro c hc
      by_cases he : c = i
      · subst he; simp only [upd_same] at hc; cases hc
      · simp only [upd_ne _ _ he] at hc
        rw [hcount, if_neg he]; exact h.cnt0 c hc
    · intro c j l hcl
      by_cases he : c = i
      · subst he
        simp only [upd_same] at hcl
        injection hcl with e1 e2
        subst e1 e2
        left
        rw [hcount, if_pos rfl, h.cnt0 c hpc]
      · simp only [upd_ne _ _ he] at hcl
        rw [hcount, if_neg he]; exact h.cnt c j l hcl
  | «at» j l =>
    simp only []
    obtain ⟨hr1, hr2⟩ := h.range i hi j l hpc
    by_cases hjl : j < l
    · rw [if_pos hjl]
      have hjlen : j < ((fun i => A0.row i ++ rowOf ws i) i).length := by
        simp only [List.length_append]; omega
      obtain ⟨⟨ll, w⟩, hget⟩ : ∃ p, ((fun i => A0.row i ++ rowOf ws i) i)[j]? = some p :=
        ⟨_, List.getElem?_eq_getElem hjlen⟩
      rw [hR.read_idx hi hget, Res.bind_ok]
      -- the cases where only the program counter moves
      have hmove : (∀ r w, (A0.row i)[j]? = some (r, w) → sel i r = true → False) →
          AdjInv N conj sel A0 (done ++ [i]) ws (upd pc i (.at (j + 1) l)) := by
        intro hns
        refine ⟨h.key, ?_, ?_, ?_, ?_, ?_⟩
        · intro r c v hm
          obtain ⟨h1, h2, h3, k, k', l', w', h4, h5, h6, h7⟩ := h.sound r c v hm
          by_cases he : c = i
          · subst he
            rw [hpc] at h6
            injection h6 with e1 e2
            subst e1 e2
            exact ⟨h1, h2, h3, k, j + 1, l, w', h4, h5, by rw [upd_same], by omega⟩
          · exact ⟨h1, h2, h3, k, k', l', w', h4, h5, by rw [upd_ne _ _ he]; exact h6, h7⟩
        · intro c hc k l' hcl
          by_cases he : c = i
          · subst he
            simp only [upd_same] at hcl
            injection hcl with e1 e2
            subst e1 e2
            exact ⟨hr1, hr2⟩
          · simp only [upd_ne _ _ he] at hcl; exact h.range c hc k l' hcl
        · intro c hc k l' hcl
          by_cases he : c = i
          · subst he
            simp only [upd_same] at hcl
            injection hcl with e1 e2
            subst e1 e2
            intro j' r w' hj' hg hs
            by_cases hjj : j' = j
            · subst hjj; exact (hns r w' hg hs).elim
            · exact h.compl c hc j l hpc j' r w' (by omega) hg hs
          · simp only [upd_ne _ _ he] at hcl; exact h.compl c hc k l' hcl
        · intro c hc
          by_cases he : c = i
          · subst he; simp only [upd_same] at hc; cases hc
          · simp only [upd_ne _ _ he] at hc
            rw [hcount, if_neg he]; exact h.cnt0 c hc
        · intro c k l' hcl
          by_cases he : c = i
          · subst he
            simp only [upd_same] at hcl
            injection hcl with e1 e2
            subst e1 e2
            rw [hcount, if_pos rfl]
            rcases h.cnt c j l hpc with hh | hh
            · left; omega
            · omega
          · simp only [upd_ne _ _ he] at hcl
            rw [hcount, if_neg he]; exact h.cnt c k l' hcl
      by_cases hs : sel i ll = true
      · rw [if_pos hs]
        -- the slot is an original one
        have hj0 : (A0.row i)[j]? = some (ll, w) := by
          by_cases hlt : j < (A0.row i).length
          · have := hget
            simp only [] at this
            rwa [List.getElem?_append_left hlt] at this
          · exfalso
            have := hget
            simp only [] at this
            rw [List.getElem?_append_right (by omega)] at this
            have hm := mem_rowOf.1 (List.mem_of_getElem? this)
            obtain ⟨_, _, h3, _⟩ := h.sound i ll w hm
            rw [hasym _ _ h3] at hs
            cases hs
        have hst : A0.Stored i ll :=
          stored_iff.2 (List.mem_map.2 ⟨_, List.mem_of_getElem? hj0, rfl⟩)
        have hllN : ll < N := (hA.good i hi).2 _ (List.mem_of_getElem? hj0)
        have hnew : ∀ v, (ll, i, v) ∉ ws := by
          intro v hm
          obtain ⟨_, _, _, k, k', l', w', h4, _, h6, h7⟩ := h.sound ll i v hm
          rw [hpc] at h6
          injection h6 with e1 e2
          have := row_getElem?_inj hA hi h4 hj0
          omega
        have hcap' : A0.nnz.get ll + (rowOf (ws ++ [(ll, i, conj w)]) ll).length ≤ A0.M := by
          refine le_trans (Nat.add_le_add_left (rowOf_length_le (N := N) ?_ ll
            (fun c => sel c ll = true ∧ A0.Stored c ll) ?_) _) (hfit ll hllN)
          · rw [List.map_append, List.nodup_append]
            refine ⟨h.key, by simp, ?_⟩
            rintro x hx y hy rfl
            simp only [List.map_cons, List.map_nil, List.mem_singleton] at hy
            subst hy
            obtain ⟨⟨r, c, v⟩, hp, hpe⟩ := List.mem_map.1 hx
            simp only [Prod.mk.injEq] at hpe
            obtain ⟨rfl, rfl⟩ := hpe
            exact hnew v hp
          · intro c v hm
            rcases List.mem_append.1 hm with hm | hm
            · obtain ⟨_, hc, hs, k, k', l', w', hj, _⟩ := h.sound ll c v hm
              exact ⟨hc, hs, stored_iff.2 (List.mem_map.2 ⟨_, List.mem_of_getElem? hj, rfl⟩)⟩
            · simp only [List.mem_singleton, Prod.mk.injEq, true_and] at hm
              obtain ⟨rfl, _⟩ := hm
              exact ⟨hi, hs, hst⟩
        have hcap : (A0.row ll ++ rowOf ws ll).length < A0.M := by
          rw [rowOf_append] at hcap'
          have : rowOf [(ll, i, conj w)] ll = [(i, conj w)] := by simp [rowOf]
          rw [this] at hcap'
          simp only [List.length_append, List.length_cons, List.length_nil, row_length] at hcap' ⊢
          omega
        rw [if_pos (by rw [hR.wid]; exact hlock i ll hi hst hs), hR.read_nnz hllN, Res.bind_ok,
          hR.read_val hi hget, Res.bind_ok,
          putEntry_eq hR.shape _ _ (by rw [hR.dim]; exact hllN) (by rw [hR.wid]; exact hcap),
          Res.bind_ok, setNnz_eq (hR.shape.put _ _ _ _) _ (by show ll < (apps ws A0).N; rw [hR.dim]; exact hllN),
          Res.bind_ok, Res.pure_eq, Res.wp_ok]
        refine ⟨ws ++ [(ll, i, conj w)], ?_, ?_, ?_, ?_, ?_, ?_, ?_⟩
        · rw [apps_snoc]
          unfold app
          simp only []
          rw [hR.nnz hllN]
        · rw [List.map_append, List.nodup_append]
          refine ⟨h.key, by simp, ?_⟩
          rintro x hx y hy rfl
          simp only [List.map_cons, List.map_nil, List.mem_singleton] at hy
          subst hy
          obtain ⟨⟨r, c, v⟩, hp, hpe⟩ := List.mem_map.1 hx
          simp only [Prod.mk.injEq] at hpe
          obtain ⟨rfl, rfl⟩ := hpe
          exact hnew v hp
        · intro r c v hm
          rcases List.mem_append.1 hm with hm | hm
          · obtain ⟨h1, h2, h3, k, k', l', w', h4, h5, h6, h7⟩ := h.sound r c v hm
            by_cases he : c = i
            · subst he
              rw [hpc] at h6
              injection h6 with e1 e2
              subst e1 e2
              exact ⟨h1, h2, h3, k, j + 1, l, w', h4, h5, by simp only [upd_same], by omega⟩
            · exact ⟨h1, h2, h3, k, k', l', w', h4, h5, by simp only [upd_ne _ _ he]; exact h6, h7⟩
          · simp only [List.mem_singleton, Prod.mk.injEq] at hm
            obtain ⟨rfl, rfl, rfl⟩ := hm
            exact ⟨hllN, hi, hs, j, j + 1, l, w, hj0, rfl, by simp only [upd_same], by omega⟩
        · intro c hc k l' hcl
          rw [rowOf_append, List.length_append]
          by_cases he : c = i
          · subst he
            simp only [upd_same] at hcl
            injection hcl with e1 e2
            subst e1 e2
            exact ⟨hr1, by omega⟩
          · simp only [upd_ne _ _ he] at hcl
            have := h.range c hc k l' hcl
            exact ⟨this.1, by omega⟩
        · intro c hc k l' hcl
          by_cases he : c = i
          · subst he
            simp only [upd_same] at hcl
            injection hcl with e1 e2
            subst e1 e2
            intro j' r w' hj' hg hs'
            by_cases hjj : j' = j
            · subst hjj
              rw [hj0] at hg
              simp only [Option.some.injEq, Prod.mk.injEq] at hg
              obtain ⟨rfl, rfl⟩ := hg
              simp
            · exact List.mem_append_left _ (h.compl c hc j l hpc j' r w' (by omega) hg hs')
          · simp only [upd_ne _ _ he] at hcl
            intro j' r w' hj' hg hs'
            exact List.mem_append_left _ (h.compl c hc k l' hcl j' r w' hj' hg hs')
        · intro c hc
          by_cases he : c = i
          · subst he; simp only [upd_same] at hc; cases hc
          · simp only [upd_ne _ _ he] at hc
            rw [hcount, if_neg he]; exact h.cnt0 c hc
        · intro c k l' hcl
          by_cases he : c = i
          · subst he
            simp only [upd_same] at hcl
            injection hcl with e1 e2
            subst e1 e2
            rw [hcount, if_pos rfl]
            rcases h.cnt c j l hpc with hh | hh
            · left; omega
            · omega
          · simp only [upd_ne _ _ he] at hcl
            rw [hcount, if_neg he]; exact h.cnt c k l' hcl
      · rw [if_neg hs, Res.pure_eq, Res.wp_ok]
        refine ⟨ws, rfl, hmove ?_⟩
        intro r w' hg hs'
        have hlt := getElem?_lt_some hg
        have := hget
        simp only [] at this
        rw [List.getElem?_append_left hlt, hg] at this
        simp only [Option.some.injEq, Prod.mk.injEq] at this
        rw [this.1] at hs'
        exact hs hs'
    · rw [if_neg hjl, Res.pure_eq, Res.wp_ok]
      refine ⟨ws, rfl, h.key, h.sound, h.range, h.compl, ?_, ?_⟩
      · intro c hc
        have he : c ≠ i := by rintro rfl; simp only [] at hc; rw [hpc] at hc; cases hc
        rw [hcount, if_neg he]; exact h.cnt0 c hc
      · intro c k l' hcl
        by_cases he : c = i
        · subst he
          simp only [] at hcl
          rw [hpc] at hcl
          injection hcl with e1 e2
          subst e1 e2
          right; omega
        · rw [hcount, if_neg he]; exact h.cnt c k l' hcl

/-- **The mirroring loop**, for every interleaving of the row iterations. -/
theorem adjLoop_spec (hA : A0.Rep N a) (hfit : AdjFits N sel A0)
    (hasym : ∀ i j, sel i j = true → sel j i = false)
    (hempty : ∀ i j, i < N → j < N → sel i j = true → ¬ A0.Stored j i)
    (hlock : ∀ i j, i < N → A0.Stored i j → sel i j = true → j < A0.M) (hconj : conj 0 = 0)
    (sc : List Nat) (hsc : ∀ i ∈ sc, i < N) :
    ∃ A' pc, forList sc (A0, fun _ => AdjPc.idle) (adjStep conj sel) = .ok (A', pc) ∧
      ((∀ i, i < N → A0.M < sc.count i) → AdjDone N pc) ∧
      (AdjDone N pc → A'.M = A0.M ∧
        A'.Rep N (fun r c => if sel c r = true then conj (a c r) else a r c)) := by
  have h0 : AdjInv N conj sel A0 [] [] (fun _ => AdjPc.idle) := by
    refine ⟨by simp, ?_, ?_, ?_, ?_, ?_⟩
    · intro r c v hm; simp at hm
    · intro c _ j l hc; cases hc
    · intro c _ j l hc; cases hc
    · intro c _; simp
    · intro c j l hc; cases hc
  have hwp : (forList sc (A0, fun _ => AdjPc.idle) (adjStep conj sel)).wp False
      (fun st => ∃ ws, st.1 = apps ws A0 ∧ AdjInv N conj sel A0 sc ws st.2) := by
    refine wp_forList (fun done st => ∃ ws, st.1 = apps ws A0 ∧
      AdjInv N conj sel A0 done ws st.2) ⟨[], rfl, h0⟩ ?_ (fun _ h => h)
    rintro pre i post hl ⟨A, pc⟩ ⟨ws, hA', hI⟩
    simp only at hA'
    subst hA'
    exact wp_adjStep hA hfit hasym hlock (hsc i (by rw [hl]; simp)) hI
  obtain ⟨⟨A', pc⟩, hrun, ws, rfl, h⟩ := Res.wp_exists hwp
  simp only [] at h
  have hroom := fun i hi => h.room hfit (i := i) hi
  have hR := h.rows hA hfit
  refine ⟨_, pc, hrun, ?_, ?_⟩
  · intro hfair i hi
    cases hpc : pc i with
    | idle => have := h.cnt0 i hpc; have := hfair i hi; omega
    | «at» j l =>
      refine ⟨j, l, rfl, ?_⟩
      have h1 := hroom i hi
      have h2 := (h.range i hi j l hpc).2
      rw [row_length] at h2
      rcases h.cnt i j l hpc with hh | hh
      · have := hfair i hi; omega
      · exact hh
  · intro hdone
    have hws : ∀ r c v, (r, c, v) ∈ ws ↔ r < N ∧ c < N ∧ sel c r = true ∧
        ∃ w, (r, w) ∈ A0.row c ∧ v = conj w := by
      intro r c v
      constructor
      · intro hm
        obtain ⟨h1, h2, h3, j, _, _, w, h4, h5, _⟩ := h.sound r c v hm
        exact ⟨h1, h2, h3, w, List.mem_of_getElem? h4, h5⟩
      · rintro ⟨h1, h2, h3, w, h4, rfl⟩
        obtain ⟨j, l, hpc, hlj⟩ := hdone c h2
        obtain ⟨j', hj', he⟩ := List.mem_iff_getElem.1 h4
        have hg : (A0.row c)[j']? = some (r, w) := by rw [List.getElem?_eq_getElem hj', he]
        exact h.compl c h2 j l hpc j' r w (by have := (h.range c h2 j l hpc).1; omega) hg h3
    refine ⟨hR.wid, apps_rep hA ?_ h.key hroom ?_⟩
    · rintro ⟨r, c, v⟩ hm
      obtain ⟨h1, h2, h3, _⟩ := (hws r c v).1 hm
      exact ⟨h1, h2, hempty c r h2 h1 h3⟩
    · intro r c hr hc
      by_cases hs : sel c r = true
      · rw [if_pos hs]
        have h0' : a r c = 0 := by
          rw [← hA.den r c hr hc]
          apply SRow.den_of_not_mem
          intro hm
          exact hempty c r hc hr hs (stored_iff.2 hm)
        rw [h0', zero_add, ← hA.den c r hc hr]
        by_cases hm : r ∈ (A0.row c).map Prod.fst
        · obtain ⟨⟨r', w⟩, hp, rfl⟩ := List.mem_map.1 hm
          rw [SRow.den_of_mem (hA.good c hc).1 hp]
          exact (SRow.den_of_mem (rowOf_nodup h.key _)
            (mem_rowOf.2 ((hws r' c _).2 ⟨hr, hc, hs, w, hp, rfl⟩))).symm
        · rw [SRow.den_of_not_mem hm, hconj, SRow.den_of_not_mem]
          intro hm'
          obtain ⟨⟨c', v⟩, hp, rfl⟩ := List.mem_map.1 hm'
          obtain ⟨_, _, _, w, hw, _⟩ := (hws r c' v).1 (mem_rowOf.1 hp)
          exact hm (List.mem_map.2 ⟨_, hw, rfl⟩)
      · rw [if_neg hs, SRow.den_of_not_mem, add_zero]
        intro hm'
        obtain ⟨⟨c', v⟩, hp, rfl⟩ := List.mem_map.1 hm'
        exact hs ((hws r c' v).1 (mem_rowOf.1 hp)).2.2.1

end Ell

end Bml
