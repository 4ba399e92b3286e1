import Verif.Ellpack.Rows

/-!
# In-place transposition of ELLPACK matrices
-/

set_option linter.unusedSectionVars false

namespace Bml

theorem Res.bind_assoc {α β γ : Type} (r : Res α) (f : α → Res β) (g : β → Res γ) :
    (r >>= f) >>= g = r >>= fun x => f x >>= g := by
  cases r <;> rfl

/-- A `while` loop with a variant. -/
theorem wp_whileLoop {σ : Type} {E : Prop} {cond : σ → Bool} {body : σ → Res σ}
    (I : Nat → σ → Prop) (hc : ∀ n s, I n s → (cond s = true ↔ n ≠ 0))
    (hb : ∀ n s, I (n + 1) s → (body s).wp E (I n)) :
    ∀ fuel n s, n ≤ fuel → I n s → (whileLoop cond body fuel s).wp E (I 0) := by
  intro fuel
  induction fuel with
  | zero =>
    intro n s hn hI
    have : n = 0 := by omega
    subst this
    have hcs : cond s = false := by
      have := hc 0 s hI
      simpa using this
    simp only [whileLoop, hcs]
    exact hI
  | succ f ih =>
    intro n s hn hI
    cases n with
    | zero =>
      have hcs : cond s = false := by
        have := hc 0 s hI
        simpa using this
      simp only [whileLoop, hcs]
      exact hI
    | succ n =>
      have hcs : cond s = true := (hc _ s hI).2 (by omega)
      simp only [whileLoop, hcs, if_true]
      rw [Res.wp_bind]
      exact Res.wp_mono (hb n s hI) (fun s' h' => ih n s' (by omega) h')

namespace Ell

variable {R : Type} [CommRing R] {E : Prop}

/-- The columns of a row. -/
abbrev cols (L : SRow R) : List Nat := L.map Prod.fst

/-- The ghost state of the in-place transposition of the rows `L0`: row `r` is
`P r ++ U r`, `P r` already transposed, `U r` still untouched. -/
structure Ghost (N : Nat) (L0 P U : Nat → SRow R) : Prop where
  pnd : ∀ r, r < N → (cols (P r)).Nodup
  und : ∀ r, r < N → (cols (U r)).Nodup
  ps : ∀ r, r < N → ∀ c v, (c, v) ∈ P r → c < N ∧ (r, v) ∈ L0 c
  us : ∀ r, r < N → ∀ c v, (c, v) ∈ U r → c < N ∧ (c, v) ∈ L0 r
  cpl : ∀ r, r < N → ∀ c v, (c, v) ∈ L0 r → (c, v) ∈ U r ∨ (r, v) ∈ P c
  dj : ∀ r, r < N → ∀ c, c < N → c ∈ cols (P r) → r ∉ cols (U c)

/-- Moving the entry `(c, v)` of row `r` to row `c`. -/
theorem Ghost.move {N : Nat} {L0 P U U' : Nat → SRow R} (g : Ghost N L0 P U) {r c : Nat} {v : R}
    {W : SRow R} (hr : r < N) (hU : (U r).Perm ((c, v) :: W))
    (hne : ∀ s, s ≠ r → (U' s).Perm (U s)) (hW : (U' r).Perm W) :
    Ghost N L0 (upd P c (P c ++ [(r, v)])) U' := by
  have hmem : (c, v) ∈ U r := hU.symm.subset (by simp)
  have hc : c < N := (g.us r hr c v hmem).1
  have hcol : c ∈ cols (U r) := List.mem_map.2 ⟨_, hmem, rfl⟩
  have hrP : r ∉ cols (P c) := fun h => g.dj c hc r hr h hcol
  have hnd : (cols ((c, v) :: W)).Nodup := ((hU.map Prod.fst).nodup_iff).1 (g.und r hr)
  have hcW : c ∉ cols W := (List.nodup_cons.1 hnd).1
  have hsub : ∀ s, ∀ p, p ∈ U' s → p ∈ U s := by
    intro s p hp
    by_cases hs : s = r
    · subst hs
      exact hU.symm.subset (List.mem_cons_of_mem _ (hW.subset hp))
    · exact (hne s hs).subset hp
  refine ⟨?_, ?_, ?_, ?_, ?_, ?_⟩
  · intro s hs
    by_cases he : s = c
    · subst he
      rw [upd_same]
      simp only [cols, List.map_append, List.map_cons, List.map_nil]
      rw [List.nodup_append]
      exact ⟨g.pnd s hs, by simp, by
        rintro a ha b hb rfl
        simp at hb; subst hb; exact hrP ha⟩
    · rw [upd_ne _ _ he]; exact g.pnd s hs
  · intro s hs
    by_cases he : s = r
    · subst he
      exact ((hW.map Prod.fst).nodup_iff).2 (List.nodup_cons.1 hnd).2
    · exact (((hne s he).map Prod.fst).nodup_iff).2 (g.und s hs)
  · intro s hs d w hd
    by_cases he : s = c
    · subst he
      rw [upd_same, List.mem_append] at hd
      rcases hd with hd | hd
      · exact g.ps s hs d w hd
      · simp only [List.mem_singleton, Prod.mk.injEq] at hd
        obtain ⟨rfl, rfl⟩ := hd
        exact ⟨hr, (g.us d hr s w hmem).2⟩
    · rw [upd_ne _ _ he] at hd; exact g.ps s hs d w hd
  · intro s hs d w hd
    exact g.us s hs d w (hsub s _ hd)
  · intro s hs d w hd
    rcases g.cpl s hs d w hd with h | h
    · by_cases he : s = r
      · subst he
        rcases List.mem_cons.1 (hU.subset h) with h | h
        · right
          obtain ⟨rfl, rfl⟩ := Prod.mk.inj h
          rw [upd_same]; simp
        · left; exact hW.symm.subset h
      · left; exact (hne s he).symm.subset h
    · right
      by_cases he : d = c
      · subst he; rw [upd_same]; exact List.mem_append_left _ h
      · rw [upd_ne _ _ he]; exact h
  · intro s hs d hd hm hmU
    have hmU' : s ∈ cols (U d) := by
      obtain ⟨p, hp, hp'⟩ := List.mem_map.1 hmU
      exact List.mem_map.2 ⟨p, hsub d p hp, hp'⟩
    by_cases he : s = c
    · subst he
      rw [upd_same] at hm
      simp only [cols, List.map_append, List.map_cons, List.map_nil, List.mem_append,
        List.mem_singleton] at hm
      rcases hm with hm | hm
      · exact g.dj s hs d hd hm hmU'
      · subst hm
        obtain ⟨p, hp, hp'⟩ := List.mem_map.1 hmU
        exact hcW (List.mem_map.2 ⟨p, hW.subset hp, hp'⟩)
    · rw [upd_ne _ _ he] at hm
      exact g.dj s hs d hd hm hmU'

/-- The columns a row holds at some time during the in-place transposition. -/
def SymCols (N : Nat) (L0 : Nat → SRow R) (r c : Nat) : Prop :=
  c < N ∧ (c ∈ cols (L0 r) ∨ r ∈ cols (L0 c))

/-- The full invariant. -/
structure TrInv (N M : Nat) (L0 : Nat → SRow R) (A : Ell R) (nzt : Arr Nat)
    (P U : Nat → SRow R) : Prop where
  g : Ghost N L0 P U
  x : ∀ r, r < N → ∀ c, c ∈ cols (P r) → c ∉ cols (U r)
  rows : Rows A N M (fun r => P r ++ U r)
  nzs : nzt.size = N
  nzg : ∀ r, r < N → nzt.get r = (P r).length

theorem TrInv.read_nzt {N M : Nat} {L0 : Nat → SRow R} {A : Ell R} {nzt : Arr Nat}
    {P U : Nat → SRow R} (h : TrInv N M L0 A nzt P U) {r : Nat} (hr : r < N) :
    nzt.read r = .ok (P r).length := by
  rw [Arr.read_ok (by rw [h.nzs]; exact hr), h.nzg r hr]

open Classical in
/-- A row that is about to receive the column `i` has room for it. -/
theorem TrInv.room {N M : Nat} {L0 : Nat → SRow R} {A : Ell R} {nzt : Arr Nat}
    {P U : Nat → SRow R} (h : TrInv N M L0 A nzt P U) {i j : Nat} {v : R} (hi : i < N)
    (hj : j < N) (hm : (j, v) ∈ U i) (hno : i ∉ cols (U j))
    (hcap : ((Finset.range N).filter (fun c => SymCols N L0 j c)).card ≤ M) :
    (P j ++ U j).length < M := by
  have hiP : i ∉ cols (P j) := fun hp => h.g.dj j hj i hi hp (List.mem_map.2 ⟨_, hm, rfl⟩)
  have hnd : (i :: cols (P j ++ U j)).Nodup := by
    rw [List.nodup_cons]
    refine ⟨?_, ?_⟩
    · simp only [cols, List.map_append, List.mem_append, not_or]
      exact ⟨hiP, hno⟩
    · simp only [cols, List.map_append]
      rw [List.nodup_append]
      refine ⟨h.g.pnd j hj, h.g.und j hj, ?_⟩
      rintro a ha b hb rfl
      exact h.x j hj a ha hb
  have hsub : ∀ c ∈ (i :: cols (P j ++ U j)), SymCols N L0 j c := by
    intro c hc
    simp only [cols, List.map_append, List.mem_cons, List.mem_append] at hc
    rcases hc with rfl | hc | hc
    · exact ⟨hi, Or.inr (List.mem_map.2 ⟨_, (h.g.us c hi j v hm).2, rfl⟩)⟩
    · obtain ⟨⟨c', w⟩, hp, rfl⟩ := List.mem_map.1 hc
      have := h.g.ps j hj _ _ hp
      exact ⟨this.1, Or.inr (List.mem_map.2 ⟨_, this.2, rfl⟩)⟩
    · obtain ⟨⟨c', w⟩, hp, rfl⟩ := List.mem_map.1 hc
      have := h.g.us j hj _ _ hp
      exact ⟨this.1, Or.inl (List.mem_map.2 ⟨_, this.2, rfl⟩)⟩
  have hle := SRow.length_le_card (N := N) hnd (fun c => decide (SymCols N L0 j c))
    (fun c hc => ⟨(hsub c hc).1, by simpa using hsub c hc⟩)
  simp only [decide_eq_true_eq] at hle
  simp only [List.length_cons, cols, List.length_map] at hle
  omega

theorem findSym_spec {N M : Nat} {A : Ell R} {Lf : Nat → SRow R} (h : Rows A N M Lf) {i j : Nat}
    (hj : j < N) : ∀ (V X : SRow R), Lf j = X ++ V →
      (∃ U1 U2 w, V = U1 ++ (i, w) :: U2 ∧
        findSym A i j X.length V.length = .ok (some (X.length + U1.length))) ∨
      (i ∉ cols V ∧ findSym A i j X.length V.length = .ok none) := by
  intro V
  induction V with
  | nil => intro X _; right; exact ⟨by simp, rfl⟩
  | cons p V ih =>
    intro X hX
    obtain ⟨c, w⟩ := p
    have hget : (Lf j)[X.length]? = some (c, w) := by rw [hX]; simp
    have hstep : findSym A i j X.length ((c, w) :: V).length =
        if c = i then .ok (some X.length) else findSym A i j (X.length + 1) V.length := by
      simp only [List.length_cons, findSym]
      rw [h.read_idx hj hget, Res.bind_ok]
      rfl
    by_cases hc : c = i
    · subst hc
      left
      refine ⟨[], V, w, rfl, ?_⟩
      rw [hstep, if_pos rfl]; simp
    · rcases ih (X ++ [(c, w)]) (by rw [hX]; simp) with ⟨U1, U2, w', hV, hf⟩ | ⟨hV, hf⟩
      · left
        refine ⟨(c, w) :: U1, U2, w', by rw [hV]; rfl, ?_⟩
        rw [hstep, if_neg hc]
        simp only [List.length_append, List.length_cons, List.length_nil, Nat.zero_add] at hf
        rw [hf]
        simp only [List.length_cons]
        congr 2
        omega
      · right
        refine ⟨by simp only [cols, List.map_cons, List.mem_cons, not_or]; exact ⟨Ne.symm hc, hV⟩, ?_⟩
        rw [hstep, if_neg hc]
        simpa using hf

theorem upd_upd {α : Type} (f : Nat → α) (i : Nat) (x y : α) : upd (upd f i x) i y = upd f i y := by
  funext k; by_cases h : k = i
  · subst h; simp
  · simp [upd_ne _ _ h]

theorem size_le_of {N : Nat} {a : Arr Nat} (h : a.size = N) {r : Nat} (hr : r < N) :
    r < a.size := by omega

/-- What one step of the `while` loop achieves. -/
def StepPost (N M : Nat) (L0 : Nat → SRow R) (i n : Nat) (U : Nat → SRow R) (s : TrSt R) : Prop :=
  ∃ P' U', TrInv N M L0 s.A s.nzt P' U' ∧ (U' i).length = n ∧
    s.pos1 = (P' i).length + (U' i).length ∧ ∀ r, U r = [] → U' r = []

/-- Case `j = i`. -/
theorem leftStep_diag {N M : Nat} {L0 P U : Nat → SRow R} {s : TrSt R} {i : Nat}
    (h : TrInv N M L0 s.A s.nzt P U) (hi : i < N) {U' : SRow R} {v : R}
    (hU : U i = U' ++ [(i, v)]) (hpos : s.pos1 = (P i).length + (U i).length) :
    (leftStep i s).wp E (StepPost N M L0 i U'.length U) := by
  have hlast : ((fun r => P r ++ U r) i)[s.pos1 - 1]? = some (i, v) := by
    show (P i ++ U i)[s.pos1 - 1]? = _
    rw [hpos, hU, List.getElem?_append_right (by simp)]
    simp
  unfold leftStep
  simp only []
  rw [h.rows.read_idx hi hlast, Res.bind_ok, if_neg (by omega), if_neg (by omega),
    h.read_nzt hi, Res.bind_ok]
  obtain ⟨y, U'', hy, hset, hperm⟩ := swap_perm (P i) U' [] (i, v)
  rw [← hU] at hy hset
  obtain ⟨A', hA', hR⟩ := h.rows.swap hi hlast (show ((fun r => P r ++ U r) i)[(P i).length]? = some y from hy)
  rw [hA', Res.bind_ok, Arr.write_ok _ (size_le_of h.nzs hi), Res.bind_ok, Res.pure_eq, Res.wp_ok]
  have hp1 : s.pos1 - 1 = (P i).length + U'.length := by rw [hpos, hU]; simp
  simp only [hp1, hset] at hR
  rw [List.append_nil] at hperm
  have hUp : (U i).Perm ((i, v) :: U') := by rw [hU]; exact (List.perm_append_singleton _ _)
  have hg := h.g.move (U' := upd U i U'') hi hUp (fun s hs => by rw [upd_ne _ _ hs])
    (by rw [upd_same]; exact hperm)
  refine ⟨_, _, ⟨hg, ?_, hR.congr ?_, h.nzs, ?_⟩, ?_, ?_, ?_⟩
  · intro r hr c hc
    by_cases he : r = i
    · subst he
      rw [upd_same] at hc ⊢
      have hnd : (cols ((r, v) :: U')).Nodup := ((hUp.map Prod.fst).nodup_iff).1 (h.g.und r hr)
      simp only [cols, List.map_append, List.map_cons, List.map_nil, List.mem_append,
        List.mem_singleton] at hc
      intro hcU
      have hcU' : c ∈ cols U' := (hperm.map Prod.fst).subset hcU
      rcases hc with hc | hc
      · exact h.x r hr c hc (by rw [hU]; simp only [cols, List.map_append, List.mem_append]; exact Or.inl hcU')
      · subst hc
        exact (List.nodup_cons.1 hnd).1 hcU'
    · rw [upd_ne _ _ he] at hc ⊢
      exact h.x r hr c hc
  · intro r hr
    by_cases he : r = i
    · subst he; simp only [upd_same]; simp
    · simp only [upd_ne _ _ he]
  · intro r hr
    by_cases he : r = i
    · subst he; simp only [upd_same]; simp
    · simp only [upd_ne _ _ he]; exact h.nzg r hr
  · rw [upd_same]; exact hperm.length_eq
  · simp only [upd_same, List.length_append, hperm.length_eq, hpos, hU, List.length_cons,
      List.length_nil]; omega
  · intro r hr
    by_cases he : r = i
    · subst he; rw [hr] at hU; simp at hU
    · rw [upd_ne _ _ he]; exact hr

/-- The common part of the cases without a partner: row `j` is `P j ++ (i, v) :: W`, the last
entry of row `i` is dropped. -/
theorem trInv_move {N M : Nat} {L0 P U : Nat → SRow R} {A A' : Ell R} {nzt : Arr Nat}
    {i j : Nat} (h : TrInv N M L0 A nzt P U) (hi : i < N) (hj : j < N) (hij : j ≠ i)
    {U' W : SRow R} {v : R} (hU : U i = U' ++ [(j, v)]) (hno : i ∉ cols (U j))
    (hWp : W.Perm (U j))
    (hR : Rows A' N M (upd (upd (fun r => P r ++ U r) j (P j ++ (i, v) :: W)) i (P i ++ U'))) :
    StepPost N M L0 i U'.length U
      ⟨A', ⟨nzt.size, upd nzt.get j ((P j).length + 1)⟩, (P i).length + U'.length⟩ := by
  have hUp : (U i).Perm ((j, v) :: U') := by rw [hU]; exact (List.perm_append_singleton _ _)
  have hg := h.g.move (U' := upd (upd U j W) i U') hi hUp (fun s hs => by
      rw [upd_ne _ _ hs]
      by_cases he : s = j
      · subst he; rw [upd_same]; exact hWp
      · rw [upd_ne _ _ he])
    (by rw [upd_same])
  refine ⟨_, _, ⟨hg, ?_, hR.congr ?_, h.nzs, ?_⟩, ?_, ?_, ?_⟩
  · intro r hr c hc hcU
    have hcU' : c ∈ cols (U r) := by
      by_cases he : r = i
      · subst he
        rw [upd_same] at hcU
        rw [hU]; simp only [cols, List.map_append, List.mem_append]; exact Or.inl hcU
      · rw [upd_ne _ _ he] at hcU
        by_cases hj' : r = j
        · subst hj'
          rw [upd_same] at hcU
          exact (hWp.map Prod.fst).subset hcU
        · rwa [upd_ne _ _ hj'] at hcU
    by_cases he : r = j
    · subst he
      rw [upd_same] at hc
      simp only [cols, List.map_append, List.map_cons, List.map_nil, List.mem_append,
        List.mem_singleton] at hc
      rcases hc with hc | hc
      · exact h.x r hr c hc hcU'
      · subst hc; exact hno hcU'
    · rw [upd_ne _ _ he] at hc
      exact h.x r hr c hc hcU'
  · intro r hr
    by_cases he : r = i
    · subst he; simp only [upd_same]; rw [upd_ne _ _ (Ne.symm hij)]
    · simp only [upd_ne _ _ he]
      by_cases hj' : r = j
      · subst hj'; simp only [upd_same]; simp
      · simp only [upd_ne _ _ hj']
  · intro r hr
    by_cases he : r = j
    · subst he; simp only [upd_same]; simp
    · simp only [upd_ne _ _ he]; exact h.nzg r hr
  · rw [upd_same]
  · simp only [upd_same]; rw [upd_ne _ _ (Ne.symm hij)]
  · intro r hr
    by_cases he : r = i
    · subst he; rw [hr] at hU; simp at hU
    · rw [upd_ne _ _ he]
      by_cases hj' : r = j
      · subst hj'; rw [upd_same]; rw [hr] at hWp; exact List.perm_nil.1 hWp
      · rw [upd_ne _ _ hj']; exact hr

/-- Dropping the last entry of row `i` after row `j` was changed. -/
theorem rows_drop {N M : Nat} {P U : Nat → SRow R} {A : Ell R} {i j : Nat} (hi : i < N)
    (hij : j ≠ i) {U' Z : SRow R} {v : R} (hU : U i = U' ++ [(j, v)])
    (hR : Rows A N M (upd (fun r => P r ++ U r) j Z)) :
    (do let m ← A.nnz.read i; A.setNnz i (m - 1)) =
        .ok (A.withNnz i ((P i).length + U'.length)) ∧
      Rows (A.withNnz i ((P i).length + U'.length)) N M
        (upd (upd (fun r => P r ++ U r) j Z) i (P i ++ U')) := by
  have hl : (upd (fun r => P r ++ U r) j Z i) = P i ++ U' ++ [(j, v)] := by
    rw [upd_ne _ _ (Ne.symm hij), hU, List.append_assoc]
  constructor
  · rw [hR.read_nnz hi, Res.bind_ok, setNnz_eq hR.shape _ (by rw [hR.dim]; exact hi), hl]
    congr 2
    simp
  · refine (hR.pop hi (n := (P i).length + U'.length) (by rw [hl]; simp)).congr ?_
    intro r hr
    by_cases he : r = i
    · subst he
      simp only [upd_same]
      rw [hl, List.take_left' (by simp)]
    · simp only [upd_ne _ _ he]

/-- Case `j < i`. -/
theorem leftStep_lt {N M : Nat} {L0 P U : Nat → SRow R} {s : TrSt R} {i j : Nat}
    (h : TrInv N M L0 s.A s.nzt P U) (hi : i < N) (hj : j < N) (hij : j < i) {U' : SRow R} {v : R}
    (hU : U i = U' ++ [(j, v)]) (hUj : U j = [])
    (hpos : s.pos1 = (P i).length + (U i).length) (hroom : (P j ++ U j).length < M) :
    (leftStep i s).wp E (StepPost N M L0 i U'.length U) := by
  have hlast : ((fun r => P r ++ U r) i)[s.pos1 - 1]? = some (j, v) := by
    show (P i ++ U i)[s.pos1 - 1]? = _
    rw [hpos, hU, List.getElem?_append_right (by simp)]
    simp
  have hNj : j < s.A.N := by rw [h.rows.dim]; exact hj
  have hnj : s.A.nnz.get j = (P j).length := by rw [h.rows.nnz hj, hUj]; simp
  unfold leftStep
  simp only []
  rw [h.rows.read_idx hi hlast, Res.bind_ok, if_neg (by omega), if_pos hij,
    h.rows.read_val hi hlast, Res.bind_ok, h.rows.read_nnz hj, Res.bind_ok,
    putEntry_eq h.rows.shape _ _ hNj (by rw [h.rows.wid]; exact hroom), Res.bind_ok,
    setNnz_eq (h.rows.shape.put _ _ _ _) _ hNj, Res.bind_ok]
  have happ := h.rows.app hj hroom i v
  have he : (s.A.put j (P j ++ U j).length i v).withNnz j ((P j ++ U j).length + 1) =
      s.A.app j i v := by
    unfold app
    rw [h.rows.nnz hj]
  rw [he, h.read_nzt hj, Res.bind_ok, Arr.write_ok _ (size_le_of h.nzs hj), Res.bind_ok]
  obtain ⟨h1, h2⟩ := rows_drop hi (by omega) hU happ
  rw [← Res.bind_assoc, h1, Res.bind_ok, Res.pure_eq, Res.wp_ok]
  have := trInv_move h hi hj (by omega) hU (by rw [hUj]; simp) (W := []) (by rw [hUj])
    (A' := (s.A.app j i v).withNnz i ((P i).length + U'.length)) (h2.congr (fun r hr => by
      simp only [hUj, List.append_nil]))
  have hp1 : s.pos1 - 1 = (P i).length + U'.length := by rw [hpos, hU]; simp
  rw [hp1]
  exact this

/-- Case `j > i`, no partner. -/
theorem leftStep_none {N M : Nat} {L0 P U : Nat → SRow R} {s : TrSt R} {i j : Nat}
    (h : TrInv N M L0 s.A s.nzt P U) (hi : i < N) (hj : j < N) (hij : i < j) {U' : SRow R} {v : R}
    (hU : U i = U' ++ [(j, v)]) (hno : i ∉ cols (U j))
    (hf : findSym s.A i j (P j).length (U j).length = .ok none)
    (hpos : s.pos1 = (P i).length + (U i).length) (hroom : (P j ++ U j).length < M) :
    (leftStep i s).wp E (StepPost N M L0 i U'.length U) := by
  have hlast : ((fun r => P r ++ U r) i)[s.pos1 - 1]? = some (j, v) := by
    show (P i ++ U i)[s.pos1 - 1]? = _
    rw [hpos, hU, List.getElem?_append_right (by simp)]
    simp
  have hNj : j < s.A.N := by rw [h.rows.dim]; exact hj
  unfold leftStep
  simp only []
  have hlen : (P j ++ U j).length - (P j).length = (U j).length := by simp
  rw [h.rows.read_idx hi hlast, Res.bind_ok, if_pos hij, h.rows.read_nnz hj, Res.bind_ok,
    h.read_nzt hj, Res.bind_ok, hlen, hf, Res.bind_ok]
  simp only []
  rw [h.rows.read_val hi hlast, Res.bind_ok, Res.bind_ok,
    putEntry_eq h.rows.shape _ _ hNj (by rw [h.rows.wid]; exact hroom), Res.bind_ok,
    setNnz_eq (h.rows.shape.put _ _ _ _) _ hNj, Res.bind_ok]
  have happ := h.rows.app hj hroom i v
  have he : (s.A.put j (P j ++ U j).length i v).withNnz j ((P j ++ U j).length + 1) =
      s.A.app j i v := by
    unfold app
    rw [h.rows.nnz hj]
  rw [he, Res.bind_ok]
  obtain ⟨y, W, hy, hset, hperm⟩ := swap_perm (P j) (U j) [] (i, v)
  obtain ⟨A2, hA2, hR2⟩ := happ.swap hj (p := (P j ++ U j).length) (x := (i, v))
    (q := (P j).length) (y := y) (by rw [upd_same]; simp)
    (by rw [upd_same, List.append_assoc]; exact hy)
  rw [hA2, Res.bind_ok, Arr.write_ok _ (size_le_of h.nzs hj), Res.bind_ok]
  rw [upd_same, upd_upd, List.append_assoc, List.length_append, hset] at hR2
  obtain ⟨h1, h2⟩ := rows_drop hi (by omega) hU hR2
  rw [← Res.bind_assoc, h1, Res.bind_ok, Res.pure_eq, Res.wp_ok]
  have := trInv_move h hi hj (by omega) hU hno (W := W) (by simpa using hperm)
    (A' := A2.withNnz i ((P i).length + U'.length)) h2
  have hp1 : s.pos1 - 1 = (P i).length + U'.length := by rw [hpos, hU]; simp
  rw [hp1]
  exact this

/-- Case `j > i` with a partner. -/
theorem leftStep_some {N M : Nat} {L0 P U : Nat → SRow R} {s : TrSt R} {i j : Nat}
    (h : TrInv N M L0 s.A s.nzt P U) (hi : i < N) (hj : j < N) (hij : i < j) {U' : SRow R} {v : R}
    (hU : U i = U' ++ [(j, v)]) {U1 U2 : SRow R} {w : R} (hUj : U j = U1 ++ (i, w) :: U2)
    (hf : findSym s.A i j (P j).length (U j).length = .ok (some ((P j).length + U1.length)))
    (hpos : s.pos1 = (P i).length + (U i).length) :
    (leftStep i s).wp E (StepPost N M L0 i U'.length U) := by
  have hlast : ((fun r => P r ++ U r) i)[s.pos1 - 1]? = some (j, v) := by
    show (P i ++ U i)[s.pos1 - 1]? = _
    rw [hpos, hU, List.getElem?_append_right (by simp)]
    simp
  have hpart : ((fun r => P r ++ U r) j)[(P j).length + U1.length]? = some (i, w) := by
    show (P j ++ U j)[(P j).length + U1.length]? = _
    rw [hUj, List.getElem?_append_right (by omega)]
    simp
  have hp1 : s.pos1 - 1 = (P i).length + U'.length := by rw [hpos, hU]; simp
  unfold leftStep
  simp only []
  have hlen : (P j ++ U j).length - (P j).length = (U j).length := by simp
  rw [h.rows.read_idx hi hlast, Res.bind_ok, if_pos hij, h.rows.read_nnz hj, Res.bind_ok,
    h.read_nzt hj, Res.bind_ok, hlen, hf, Res.bind_ok]
  simp only []
  rw [h.rows.read_val hi hlast, Res.bind_ok, h.rows.read_val hj hpart, Res.bind_ok]
  obtain ⟨w1, i1⟩ := h.rows.write_val hi hlast w
  rw [w1, Res.bind_ok]
  have r1 := h.rows.put hi (getElem?_lt_some hlast) j w
  have hpart1 : (upd (fun r => P r ++ U r) i ((P i ++ U i).set (s.pos1 - 1) (j, w)) j)[
      (P j).length + U1.length]? = some (i, w) := by
    rw [upd_ne _ _ (by omega : j ≠ i)]; exact hpart
  obtain ⟨w2, i2⟩ := r1.write_val hj hpart1 v
  have r2 := r1.put hj (getElem?_lt_some hpart1) i v
  have w2' : (s.A.put i (s.pos1 - 1) j w).val.write
      (ROWMAJOR j ((P j).length + U1.length) s.A.N s.A.M) v = _ := w2
  rw [w2', Res.bind_ok, h.read_nzt hi, Res.bind_ok]
  have hA2 : ({ s.A with val := ((s.A.put i (s.pos1 - 1) j w).put j
      ((P j).length + U1.length) i v).val } : Ell R) =
      (s.A.put i (s.pos1 - 1) j w).put j ((P j).length + U1.length) i v := by
    have : ((s.A.put i (s.pos1 - 1) j w).put j ((P j).length + U1.length) i v).idx = s.A.idx := by
      rw [i2, i1]
    show (⟨_, _, _, _, _⟩ : Ell R) = ⟨_, _, _, _, _⟩
    congr 1
    exact this.symm
  rw [hA2]
  have hLi : upd (upd (fun r => P r ++ U r) i ((P i ++ U i).set (s.pos1 - 1) (j, w))) j
      (((upd (fun r => P r ++ U r) i ((P i ++ U i).set (s.pos1 - 1) (j, w)) j).set
        ((P j).length + U1.length) (i, v))) =
      upd (upd (fun r => P r ++ U r) i (P i ++ (U' ++ [(j, w)]))) j
        (P j ++ (U1 ++ (i, v) :: U2)) := by
    rw [upd_ne _ _ (by omega : j ≠ i), hp1, hU, hUj]
    congr 1
    · congr 1
      rw [List.set_append_right _ _ (by omega)]
      simp
    · rw [List.set_append_right _ _ (by omega)]
      simp
  have r2' := r2
  rw [hLi] at r2'
  -- swap in row i
  obtain ⟨y, W, hy, hset, hperm⟩ := swap_perm (P i) U' [] (j, w)
  obtain ⟨A3, hA3, hR3⟩ := r2'.swap hi (p := s.pos1 - 1) (x := (j, w)) (q := (P i).length)
    (y := y) (by
      rw [upd_ne _ _ (by omega : i ≠ j), upd_same, hp1,
        List.getElem?_append_right (by omega)]; simp)
    (by rw [upd_ne _ _ (by omega : i ≠ j), upd_same]; exact hy)
  rw [hA3, Res.bind_ok, Res.bind_ok]
  rw [upd_ne _ _ (by omega : i ≠ j), upd_same, hp1, hset] at hR3
  -- swap in row j
  obtain ⟨y', W', hy', hset', hperm'⟩ := swap_perm (P j) U1 U2 (i, v)
  obtain ⟨A4, hA4, hR4⟩ := hR3.swap hj (p := (P j).length + U1.length) (x := (i, v))
    (q := (P j).length) (y := y') (by
      rw [upd_ne _ _ (by omega : j ≠ i), upd_same, List.getElem?_append_right (by omega)]; simp)
    (by rw [upd_ne _ _ (by omega : j ≠ i), upd_same]; exact hy')
  rw [hA4, Res.bind_ok, Arr.write_ok _ (size_le_of h.nzs hi), Res.bind_ok,
    Arr.read_ok (by show j < s.nzt.size; exact size_le_of h.nzs hj), Res.bind_ok,
    Arr.write_ok _ (by show j < s.nzt.size; exact size_le_of h.nzs hj), Res.bind_ok, Res.pure_eq,
    Res.wp_ok]
  rw [upd_ne _ _ (by omega : j ≠ i), upd_same, hset'] at hR4
  rw [List.append_nil] at hperm
  -- ghost moves
  have hUp : (U i).Perm ((j, v) :: U') := by rw [hU]; exact (List.perm_append_singleton _ _)
  have hUjp : (U j).Perm ((i, w) :: (U1 ++ U2)) := by rw [hUj]; exact List.perm_middle
  have hg1 := h.g.move (U' := upd U i W) hi hUp (fun s hs => by rw [upd_ne _ _ hs])
    (by rw [upd_same]; exact hperm)
  have hg2 := hg1.move (U' := upd (upd U i W) j W') (r := j) (c := i) (v := w) (W := U1 ++ U2) hj
    (by rw [upd_ne _ _ (by omega : j ≠ i)]; exact hUjp)
    (fun s hs => by rw [upd_ne _ _ hs]) (by rw [upd_same]; exact hperm')
  rw [upd_ne _ _ (by omega : i ≠ j)] at hg2
  have hndi : (cols ((j, v) :: U')).Nodup := ((hUp.map Prod.fst).nodup_iff).1 (h.g.und i hi)
  have hndj : (cols ((i, w) :: (U1 ++ U2))).Nodup :=
    ((hUjp.map Prod.fst).nodup_iff).1 (h.g.und j hj)
  refine ⟨_, _, ⟨hg2, ?_, hR4.congr ?_, h.nzs, ?_⟩, ?_, ?_, ?_⟩
  · intro r hr c hc hcU
    by_cases he : r = i
    · subst he
      rw [upd_same] at hc
      rw [upd_ne _ _ (by omega : r ≠ j), upd_same] at hcU
      have hcU' : c ∈ cols U' := (hperm.map Prod.fst).subset hcU
      simp only [cols, List.map_append, List.map_cons, List.map_nil, List.mem_append,
        List.mem_singleton] at hc
      rcases hc with hc | hc
      · exact h.x r hr c hc (by rw [hU]; simp only [cols, List.map_append, List.mem_append]; exact Or.inl hcU')
      · subst hc; exact (List.nodup_cons.1 hndi).1 hcU'
    · rw [upd_ne _ _ he] at hc
      by_cases hj' : r = j
      · subst hj'
        rw [upd_same] at hc hcU
        have hcU' : c ∈ cols (U1 ++ U2) := (hperm'.map Prod.fst).subset hcU
        simp only [cols, List.map_append, List.map_cons, List.map_nil, List.mem_append,
          List.mem_singleton] at hc
        rcases hc with hc | hc
        · exact h.x r hr c hc ((hUjp.map Prod.fst).symm.subset (List.mem_cons_of_mem _ hcU'))
        · subst hc; exact (List.nodup_cons.1 hndj).1 hcU'
      · rw [upd_ne _ _ hj'] at hc
        rw [upd_ne _ _ hj', upd_ne _ _ he] at hcU
        exact h.x r hr c hc hcU
  · intro r hr
    by_cases hj' : r = j
    · subst hj'
      simp only [upd_same]
      rw [upd_ne _ _ (by omega : r ≠ i), upd_same]; simp
    · rw [upd_ne _ _ hj']
      by_cases he : r = i
      · subst he
        simp only [upd_same]
        rw [upd_ne _ _ hj', upd_same]; simp
      · simp only [upd_ne _ _ he, upd_ne _ _ hj']
  · intro r hr
    by_cases hj' : r = j
    · subst hj'
      simp only [upd_same]
      rw [upd_ne _ _ (by omega : r ≠ i), upd_ne _ _ (by omega : r ≠ i), upd_same, h.nzg r hr]; simp
    · simp only [upd_ne _ _ hj']
      by_cases he : r = i
      · subst he; simp only [upd_same]; simp
      · simp only [upd_ne _ _ he, upd_ne _ _ hj']; exact h.nzg r hr
  · rw [upd_ne _ _ (by omega : i ≠ j), upd_same]; exact hperm.length_eq
  · rw [upd_same, upd_ne _ _ (by omega : i ≠ j), upd_same]
    simp only [List.length_append, hperm.length_eq, hpos, hU, List.length_cons,
      List.length_nil]; omega
  · intro r hr
    by_cases hj' : r = j
    · subst hj'; rw [hr] at hUj; simp at hUj
    · rw [upd_ne _ _ hj']
      by_cases he : r = i
      · subst he; rw [hr] at hU; simp at hU
      · rw [upd_ne _ _ he]; exact hr

open Classical in
/-- One step of the `while` loop. -/
theorem wp_leftStep {N M : Nat} {L0 P U : Nat → SRow R} {s : TrSt R} {i n : Nat}
    (hcap : ∀ j, j < N → ((Finset.range N).filter (fun c => SymCols N L0 j c)).card ≤ M)
    (h : TrInv N M L0 s.A s.nzt P U) (hi : i < N) (hdone : ∀ r, r < i → U r = [])
    (hn : (U i).length = n + 1) (hpos : s.pos1 = (P i).length + (U i).length) :
    (leftStep i s).wp E (StepPost N M L0 i n U) := by
  have hne : U i ≠ [] := by intro hc; rw [hc] at hn; simp at hn
  obtain ⟨U', ⟨j, v⟩, hU⟩ : ∃ U' x, U i = U' ++ [x] :=
    ⟨(U i).dropLast, (U i).getLast hne, (List.dropLast_append_getLast hne).symm⟩
  have hn' : U'.length = n := by rw [hU] at hn; simpa using hn
  have hmem : (j, v) ∈ U i := by rw [hU]; simp
  have hj : j < N := (h.g.us i hi j v hmem).1
  subst hn'
  rcases Nat.lt_trichotomy j i with hji | hji | hji
  · have hUj := hdone j hji
    exact leftStep_lt h hi hj hji hU hUj hpos
      (h.room hi hj hmem (by rw [hUj]; simp) (hcap j hj))
  · subst hji
    exact leftStep_diag h hi hU hpos
  · rcases findSym_spec (i := i) h.rows hj (U j) (P j) rfl with ⟨U1, U2, w, hUj, hf⟩ | ⟨hno, hf⟩
    · exact leftStep_some h hi hj hji hU hUj hf hpos
    · exact leftStep_none h hi hj hji hU hno hf hpos (h.room hi hj hmem hno (hcap j hj))

open Classical in
/-- Row `i` of the in-place transposition. -/
theorem wp_leftRow {N M : Nat} {L0 P U : Nat → SRow R} {st : Ell R × Arr Nat} {i : Nat}
    (hcap : ∀ j, j < N → ((Finset.range N).filter (fun c => SymCols N L0 j c)).card ≤ M)
    (h : TrInv N M L0 st.1 st.2 P U) (hi : i < N) (hdone : ∀ r, r < i → U r = []) :
    (leftRow i st).wp E (fun st' => ∃ P' U', TrInv N M L0 st'.1 st'.2 P' U' ∧
      ∀ r, r < i + 1 → U' r = []) := by
  unfold leftRow
  rw [h.rows.read_nnz hi, Res.bind_ok, Res.wp_bind]
  have := wp_whileLoop (E := E) (cond := fun s : TrSt R => decide (s.nzt.get i < s.pos1))
    (body := leftStep i)
    (fun n s => ∃ P' U', TrInv N M L0 s.A s.nzt P' U' ∧ (U' i).length = n ∧
      s.pos1 = (P' i).length + (U' i).length ∧ ∀ r, r < i → U' r = [])
    (fun n s ⟨P', U', h', hn, hp, _⟩ => by
      simp only [decide_eq_true_eq]
      rw [h'.nzg i hi, hp, hn]; omega)
    (fun n s ⟨P', U', h', hn, hp, hd⟩ => by
      refine Res.wp_mono (wp_leftStep hcap h' hi hd hn hp) ?_
      rintro s' ⟨P2, U2, h2, hn2, hp2, hd2⟩
      exact ⟨P2, U2, h2, hn2, hp2, fun r hr => hd2 r (hd r hr)⟩)
    (P i ++ U i).length (U i).length ⟨st.1, st.2, (P i ++ U i).length⟩ (by simp)
    ⟨P, U, h, rfl, by simp, hdone⟩
  refine Res.wp_mono this ?_
  rintro s' ⟨P2, U2, h2, hn2, hp2, hd2⟩
  rw [Res.pure_eq, Res.wp_ok]
  refine ⟨P2, U2, h2, fun r hr => ?_⟩
  by_cases he : r = i
  · subst he; exact List.length_eq_zero_iff.1 hn2
  · exact hd2 r (by omega)

theorem Rep.rows {A : Ell R} {N : Nat} {a : Spec.Mat R} (h : A.Rep N a) :
    Rows A N A.M A.row :=
  ⟨h.shape, h.dim, rfl, h.le, fun _ _ => rfl⟩

open Classical in
/-- **In-place transposition** of an ELLPACK matrix: if no row ever needs more than `M` slots,
it terminates, and the result represents the transposed matrix, with the transposed pattern. -/
theorem transposeInPlace_spec {A : Ell R} {N : Nat} {a : Spec.Mat R} (hA : A.Rep N a)
    (hcap : ∀ j, j < N →
      ((Finset.range N).filter (fun c => A.Stored j c ∨ A.Stored c j)).card ≤ A.M) :
    ∃ B, transposeInPlace A = .ok B ∧ B.M = A.M ∧ B.Rep N (Spec.transpose a) ∧
      (∀ i j, i < N → j < N → (B.Stored i j ↔ A.Stored j i)) := by
  have hst : ∀ r, r < N → ∀ c, A.Stored r c ↔ c ∈ cols (A.row r) := fun r hr c => stored_iff
  have hcap' : ∀ j, j < N →
      ((Finset.range N).filter (fun c => SymCols N A.row j c)).card ≤ A.M := by
    intro j hj
    refine le_trans (Finset.card_le_card ?_) (hcap j hj)
    intro c hc
    simp only [Finset.mem_filter, Finset.mem_range] at hc ⊢
    refine ⟨hc.1, ?_⟩
    rw [hst j hj c, hst c hc.1 j]
    exact hc.2.2
  have h0 : TrInv N A.M A.row A (⟨A.N, fun _ => 0⟩ : Arr Nat) (fun _ => []) A.row := by
    refine ⟨⟨?_, ?_, ?_, ?_, ?_, ?_⟩, ?_, ?_, hA.dim, ?_⟩
    · intro r _; simp [cols]
    · intro r hr; exact (hA.good r hr).1
    · intro r _ c v hc; simp at hc
    · intro r hr c v hc; exact ⟨(hA.good r hr).2 _ hc, hc⟩
    · intro r _ c v hc; exact Or.inl hc
    · intro r _ c _ hc; simp [cols] at hc
    · intro r _ c hc; simp [cols] at hc
    · exact hA.rows.congr (fun r _ => by simp)
    · intro r _; rfl
  have hwp : (transposeInPlace A).wp False (fun B => ∃ P : Nat → SRow R,
      ∃ nzt, TrInv N A.M A.row B nzt P (fun _ => [])) := by
    unfold transposeInPlace
    rw [Res.wp_bind]
    have := wp_loop' (E := False) (n := A.N)
      (s := ((A, (⟨A.N, fun _ => 0⟩ : Arr Nat)) : Ell R × Arr Nat)) (f := fun i st => leftRow i st)
      (I := fun i st => ∃ P U, TrInv N A.M A.row st.1 st.2 P U ∧ ∀ r, r < i → U r = [])
      (Q := fun st => ∃ P U, TrInv N A.M A.row st.1 st.2 P U ∧ ∀ r, r < N → U r = [])
      ⟨_, _, h0, by intro r hr; omega⟩
      (fun i hi st ⟨P, U, h, hd⟩ => wp_leftRow hcap' h (by rw [← hA.dim]; exact hi) hd)
      (fun st ⟨P, U, h, hd⟩ => ⟨P, U, h, fun r hr => hd r (by rw [hA.dim]; exact hr)⟩)
    refine Res.wp_mono this ?_
    rintro ⟨B, nzt⟩ ⟨P, U, h, hd⟩
    simp only [Res.pure_eq, Res.wp_ok]
    refine ⟨P, nzt, ⟨⟨h.g.pnd, fun _ _ => by simp [cols], h.g.ps, fun _ _ _ _ hc => by simp at hc,
      ?_, fun _ _ _ _ _ => by simp [cols]⟩, fun _ _ _ _ => by simp [cols], ?_, h.nzs, h.nzg⟩⟩
    · intro r hr c v hc
      right
      rcases h.g.cpl r hr c v hc with h' | h'
      · rw [hd r hr] at h'; simp at h'
      · exact h'
    · exact h.rows.congr (fun r hr => by rw [hd r hr])
  obtain ⟨B, hB, P, nzt, h⟩ := Res.wp_exists hwp
  have hrow : ∀ r, r < N → B.row r = P r := fun r hr => by rw [h.rows.row r hr]; simp
  have hiff : ∀ r, r < N → ∀ c, c < N → ∀ v, (c, v) ∈ P r ↔ (r, v) ∈ A.row c := by
    intro r hr c hc v
    constructor
    · intro hm; exact (h.g.ps r hr c v hm).2
    · intro hm
      rcases h.g.cpl c hc r v hm with h' | h'
      · simp at h'
      · exact h'
  refine ⟨B, hB, h.rows.wid, ⟨h.rows.shape, h.rows.dim, ?_, ?_, ?_⟩, ?_⟩
  · intro r hr; rw [h.rows.wid]; exact h.rows.le r hr
  · intro r hr
    rw [hrow r hr]
    exact ⟨h.g.pnd r hr, fun p hp => (h.g.ps r hr p.1 p.2 hp).1⟩
  · intro r c hr hc
    rw [hrow r hr]
    show (P r).den c = a c r
    rw [← hA.den c r hc hr]
    by_cases hm : c ∈ cols (P r)
    · obtain ⟨⟨c', v⟩, hp, rfl⟩ := List.mem_map.1 hm
      rw [SRow.den_of_mem (h.g.pnd r hr) hp,
        SRow.den_of_mem (hA.good c' hc).1 ((hiff r hr c' hc v).1 hp)]
    · rw [SRow.den_of_not_mem hm, SRow.den_of_not_mem]
      intro hm'
      obtain ⟨⟨r', v⟩, hp, rfl⟩ := List.mem_map.1 hm'
      exact hm (List.mem_map.2 ⟨_, (hiff r' hr c hc v).2 hp, rfl⟩)
  · intro r c hr hc
    rw [stored_iff, stored_iff, hrow r hr]
    constructor
    · intro hm
      obtain ⟨⟨c', v⟩, hp, rfl⟩ := List.mem_map.1 hm
      exact List.mem_map.2 ⟨_, (hiff r hr c' hc v).1 hp, rfl⟩
    · intro hm'
      obtain ⟨⟨r', v⟩, hp, rfl⟩ := List.mem_map.1 hm'
      exact List.mem_map.2 ⟨_, (hiff r' hr c hc v).2 hp, rfl⟩

end Ell

end Bml
