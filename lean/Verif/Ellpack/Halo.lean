import Verif.Ellpack.Stored
import Verif.Ellpack.Model4

/-!
# ELLPACK: index lists of a core and its halo

`bml_submatrix_ellpack_typed.c` lines 38-233.
-/

namespace Bml

namespace Halo

/-- Append `k` unless it is there. -/
def addNew (L : List Nat) (k : Nat) : List Nat := if k ∈ L then L else L ++ [k]

/-- Append the elements of `ks` that are new, in order. -/
def addAll (L ks : List Nat) : List Nat := ks.foldl addNew L

theorem addNew_mem {L : List Nat} {k j : Nat} : j ∈ addNew L k ↔ j ∈ L ∨ j = k := by
  unfold addNew
  split
  · next h => exact ⟨Or.inl, fun h' => h'.elim id fun e => e ▸ h⟩
  · simp

theorem addNew_nodup {L : List Nat} (h : L.Nodup) (k : Nat) : (addNew L k).Nodup := by
  unfold addNew
  split
  · exact h
  · next hk =>
    rw [List.nodup_append]
    exact ⟨h, by simp, fun a ha b hb => by simp at hb; subst hb; rintro rfl; exact hk ha⟩

theorem addNew_prefix (L : List Nat) (k : Nat) : L <+: addNew L k := by
  unfold addNew
  split
  · exact List.prefix_refl L
  · exact List.prefix_append L [k]

@[simp] theorem addAll_nil (L : List Nat) : addAll L [] = L := rfl

theorem addAll_append (L ks ks' : List Nat) : addAll L (ks ++ ks') = addAll (addAll L ks) ks' := by
  unfold addAll; rw [List.foldl_append]

theorem addAll_snoc (L ks : List Nat) (k : Nat) : addAll L (ks ++ [k]) = addNew (addAll L ks) k := by
  rw [addAll_append]; rfl

theorem addAll_mem {L ks : List Nat} {j : Nat} : j ∈ addAll L ks ↔ j ∈ L ∨ j ∈ ks := by
  induction ks generalizing L with
  | nil => simp
  | cons k ks ih =>
    show j ∈ addAll (addNew L k) ks ↔ _
    rw [ih, addNew_mem, List.mem_cons, or_assoc]

theorem addAll_nodup {L : List Nat} (h : L.Nodup) (ks : List Nat) : (addAll L ks).Nodup := by
  induction ks generalizing L with
  | nil => exact h
  | cons k ks ih => exact ih (addNew_nodup h k)

theorem addAll_prefix (L ks : List Nat) : L <+: addAll L ks := by
  induction ks generalizing L with
  | nil => exact List.prefix_refl L
  | cons k ks ih => exact (addNew_prefix L k).trans (ih (addNew L k))

theorem addAll_of_nodup {L ks : List Nat} (h : (L ++ ks).Nodup) : addAll L ks = L ++ ks := by
  induction ks generalizing L with
  | nil => simp
  | cons k ks ih =>
    show addAll (addNew L k) ks = _
    have hk : k ∉ L := by
      rw [List.nodup_append] at h
      intro hk
      exact h.2.2 k hk k (by simp) rfl
    rw [addNew, if_neg hk, ih (by simpa using h)]
    simp

end Halo

open Halo

namespace Ell

variable {R : Type} {E : Prop}

/-- The state holds the list `L`. -/
structure HaloSt.Is (N cap : Nat) (s : HaloSt) (L : List Nat) : Prop where
  szi : s.ix.size = N
  szo : s.out.size = cap
  len : s.l = L.length
  get : ∀ (p : Nat) (h : p < L.length), s.out.get p = L[p]
  nodup : L.Nodup
  lt : ∀ k ∈ L, k < N
  mark : ∀ k, k < N → (s.ix.get k = 0 ↔ k ∉ L)

theorem HaloSt.Is.length_le {N cap : Nat} {s : HaloSt} {L : List Nat} (h : s.Is N cap L) :
    L.length ≤ N := by
  have h2 : L.toFinset ⊆ Finset.range N := by
    intro a ha
    simp only [List.mem_toFinset] at ha
    simpa using h.lt a ha
  have h3 := Finset.card_le_card h2
  rw [List.toFinset_card_of_nodup h.nodup] at h3
  simpa using h3

theorem wp_haloAdd {N cap ii k : Nat} {s : HaloSt} {L : List Nat} (h : s.Is N cap L) (hk : k < N)
    (hcap : (addNew L k).length ≤ cap) :
    (haloAdd ii k s).wp E (fun s' => s'.Is N cap (addNew L k)) := by
  unfold haloAdd
  rw [Res.wp_bind, Arr.wp_read]
  refine ⟨by rw [h.szi]; exact hk, ?_⟩
  by_cases hm : k ∈ L
  · rw [if_neg (fun e => (h.mark k hk).1 e hm)]
    rw [addNew, if_pos hm]
    exact h
  · rw [if_pos ((h.mark k hk).2 hm)]
    rw [addNew, if_neg hm] at hcap ⊢
    rw [List.length_append] at hcap
    simp only [List.length_singleton] at hcap
    rw [Res.wp_bind, Arr.wp_write]
    refine ⟨by rw [h.szi]; exact hk, ?_⟩
    rw [Res.wp_bind, Arr.wp_write]
    refine ⟨by rw [h.szo, h.len]; omega, ?_⟩
    simp only [Res.pure_eq, Res.wp_ok]
    refine ⟨h.szi, h.szo, by simp [h.len], ?_, ?_, ?_, ?_⟩
    · intro p hp
      simp only [List.length_append, List.length_singleton] at hp
      simp only
      by_cases he : p = s.l
      · subst he
        rw [upd_same]
        simp only [h.len]
        rw [List.getElem_append_right (by omega)]
        simp
      · rw [upd_ne _ _ he, List.getElem_append_left (by have := h.len; omega)]
        exact h.get p _
    · have := addNew_nodup h.nodup k
      rwa [addNew, if_neg hm] at this
    · intro j hj
      rcases List.mem_append.1 hj with hj | hj
      · exact h.lt j hj
      · simp at hj; subst hj; exact hk
    · intro j hj
      simp only
      by_cases he : j = k
      · subst he; simp
      · rw [upd_ne _ _ he, h.mark j hj]; simp [he]

variable [CommRing R]

/-- The columns stored in row `i`, in order. -/
def colsOf (B : Ell R) (i : Nat) : List Nat := (B.row i).map Prod.fst

omit [CommRing R] in
theorem mem_colsOf {B : Ell R} {i j : Nat} : j ∈ B.colsOf i ↔ B.Stored i j := by
  unfold colsOf; rw [stored_iff]

theorem wp_haloRow {N cap ii : Nat} {B : Ell R} {b : Spec.Mat R} (hB : B.Rep N b) (hi : ii < N)
    {s : HaloSt} {L : List Nat} (h : s.Is N cap L)
    (hcap : (addAll L (B.colsOf ii)).length ≤ cap) :
    (haloRow B ii s).wp E (fun s' => s'.Is N cap (addAll L (B.colsOf ii))) := by
  have hBi := hB.rowSat hi
  unfold haloRow
  rw [read_nnz hB.shape (by rw [hB.dim]; exact hi), Res.bind_ok]
  refine wp_loop' (fun n s => s.Is N cap (addAll L ((B.rowPre ii n).map Prod.fst))) ?_ ?_
    (fun _ h => h)
  · simpa using h
  · intro n hn s hs
    rw [read_idx hB.shape (by rw [hB.dim]; exact hi) (by have := hBi.1; omega), Res.bind_ok]
    have hk : B.idx.get (ii * B.M + n) < N := hBi.2.1.2 _ (mem_rowPre.2 ⟨n, hn, rfl⟩)
    have hstep : addAll L ((B.rowPre ii (n + 1)).map Prod.fst)
        = addNew (addAll L ((B.rowPre ii n).map Prod.fst)) (B.idx.get (ii * B.M + n)) := by
      rw [rowPre_succ, List.map_append]
      exact addAll_snoc _ _ _
    rw [hstep]
    refine wp_haloAdd hs hk ?_
    rw [← hstep]
    refine le_trans ?_ hcap
    obtain ⟨m, hm⟩ : ∃ m, B.nnz.get ii = (n + 1) + m := ⟨B.nnz.get ii - (n + 1), by omega⟩
    have hpre : ∃ r, B.colsOf ii = (B.rowPre ii (n + 1)).map Prod.fst ++ r := by
      unfold colsOf row rowPre
      rw [hm, List.range_add, List.map_append, List.map_append]
      exact ⟨_, rfl⟩
    obtain ⟨r, hr⟩ := hpre
    rw [hr, addAll_append]
    exact (addAll_prefix _ r).length_le

/-- The columns of the rows `is`, in order. -/
def colsOfRows (B : Ell R) (is : List Nat) : List Nat := is.flatMap B.colsOf

theorem mem_colsOfRows {B : Ell R} {is : List Nat} {j : Nat} :
    j ∈ B.colsOfRows is ↔ ∃ i ∈ is, B.Stored i j := by
  unfold colsOfRows
  rw [List.mem_flatMap]
  constructor
  · rintro ⟨i, hi, hj⟩; exact ⟨i, hi, mem_colsOf.1 hj⟩
  · rintro ⟨i, hi, hj⟩; exact ⟨i, hi, mem_colsOf.2 hj⟩

/-- The first `n` nodes. -/
def nodes (nodelist : Arr Nat) (n : Nat) : List Nat := (List.range n).map nodelist.get

theorem nodes_succ (nodelist : Arr Nat) (n : Nat) :
    nodes nodelist (n + 1) = nodes nodelist n ++ [nodelist.get n] := by
  simp [nodes, List.range_succ]

theorem nodes_split {nodelist : Arr Nat} {n m : Nat} (h : n ≤ m) :
    ∃ r, nodes nodelist m = nodes nodelist n ++ r := by
  obtain ⟨d, rfl⟩ := Nat.le.dest h
  unfold nodes
  rw [List.range_add, List.map_append]
  exact ⟨_, rfl⟩

/-- Adding fewer gives a shorter list. -/
theorem addAll_length_mono {L ks r : List Nat} : (addAll L ks).length ≤ (addAll L (ks ++ r)).length := by
  rw [addAll_append]; exact (addAll_prefix _ r).length_le

/-- The first loop of the two functions. -/
theorem wp_haloCore {N cap nsize : Nat} {nodelist : Arr Nat} (hsz : nsize ≤ nodelist.size)
    (hlt : ∀ j, j < nsize → nodelist.get j < N) {s : HaloSt} (h : s.Is N cap [])
    (hcap : (addAll [] (nodes nodelist nsize)).length ≤ cap) :
    (loop nsize s fun j s => do
      let ii ← nodelist.read j
      haloAdd ii ii s).wp E (fun s' => s'.Is N cap (addAll [] (nodes nodelist nsize))) := by
  refine wp_loop' (fun n s => s.Is N cap (addAll [] (nodes nodelist n))) (by simpa [nodes] using h) ?_
    (fun _ h => h)
  intro n hn s hs
  rw [Res.wp_bind, Arr.wp_read]
  refine ⟨by omega, ?_⟩
  rw [nodes_succ, addAll_snoc]
  refine wp_haloAdd hs (hlt n hn) ?_
  rw [← addAll_snoc, ← nodes_succ]
  obtain ⟨r, hr⟩ := nodes_split (nodelist := nodelist) (show n + 1 ≤ nsize by omega)
  refine le_trans ?_ hcap
  rw [hr]
  exact addAll_length_mono

/-- The loops over the neighbours. -/
theorem wp_haloNeigh {N cap nsize : Nat} {B : Ell R} {b : Spec.Mat R} (hB : B.Rep N b)
    {nodelist : Arr Nat} (hsz : nsize ≤ nodelist.size)
    (hlt : ∀ j, j < nsize → nodelist.get j < N) {s : HaloSt} {L : List Nat} (h : s.Is N cap L)
    (hcap : (addAll L (B.colsOfRows (nodes nodelist nsize))).length ≤ cap) :
    (loop nsize s fun j s => do
      let ii ← nodelist.read j
      haloRow B ii s).wp E
      (fun s' => s'.Is N cap (addAll L (B.colsOfRows (nodes nodelist nsize)))) := by
  refine wp_loop' (fun n s => s.Is N cap (addAll L (B.colsOfRows (nodes nodelist n))))
    (by simpa [nodes, colsOfRows] using h) ?_ (fun _ h => h)
  intro n hn s hs
  rw [Res.wp_bind, Arr.wp_read]
  refine ⟨by omega, ?_⟩
  have hstep : addAll L (B.colsOfRows (nodes nodelist (n + 1)))
      = addAll (addAll L (B.colsOfRows (nodes nodelist n))) (B.colsOf (nodelist.get n)) := by
    rw [← addAll_append]
    congr 1
    unfold colsOfRows
    rw [nodes_succ, List.flatMap_append]
    simp
  rw [hstep]
  refine wp_haloRow hB (hlt n hn) hs ?_
  rw [← hstep]
  obtain ⟨r, hr⟩ := nodes_split (nodelist := nodelist) (show n + 1 ≤ nsize by omega)
  refine le_trans ?_ hcap
  unfold colsOfRows
  rw [hr, List.flatMap_append]
  exact addAll_length_mono

theorem wp_doubleJump {N cap : Nat} {B : Ell R} {b : Spec.Mat R} (hB : B.Rep N b)
    {s : HaloSt} {L : List Nat} (h : s.Is N cap L)
    (hcap : (addAll L (B.colsOfRows L)).length ≤ cap) :
    (doubleJump B s).wp E (fun s' => s'.Is N cap (addAll L (B.colsOfRows L))) := by
  unfold doubleJump
  rw [h.len]
  refine wp_loop' (fun n s => s.Is N cap (addAll L (B.colsOfRows (L.take n))))
    (by simpa [colsOfRows] using h) ?_ ?_
  · intro n hn s hs
    have hpre : L <+: addAll L (B.colsOfRows (L.take n)) := addAll_prefix _ _
    have hlen := hpre.length_le
    have hcap' : (addAll L (B.colsOfRows (L.take n))).length ≤ cap := by
      refine le_trans ?_ hcap
      conv_rhs => rw [← List.take_append_drop n L]
      unfold colsOfRows
      rw [List.flatMap_append, List.take_append_drop]
      exact addAll_length_mono
    rw [Res.wp_bind, Arr.wp_read]
    refine ⟨by rw [hs.szo]; omega, ?_⟩
    have hget : s.out.get n = L[n] := by
      rw [hs.get n (by omega)]
      exact (hpre.getElem hn).symm
    rw [hget]
    have hstep : addAll L (B.colsOfRows (L.take (n + 1)))
        = addAll (addAll L (B.colsOfRows (L.take n))) (B.colsOf L[n]) := by
      rw [← addAll_append]
      congr 1
      unfold colsOfRows
      rw [List.take_add_one, List.flatMap_append, List.getElem?_eq_getElem hn]
      simp
    rw [hstep]
    refine wp_haloRow hB (h.lt _ (List.getElem_mem hn)) hs ?_
    rw [← hstep]
    refine le_trans ?_ hcap
    conv_rhs => rw [← List.take_append_drop (n + 1) L]
    unfold colsOfRows
    rw [List.flatMap_append, List.take_append_drop]
    exact addAll_length_mono
  · intro s hs
    rwa [List.take_length] at hs

theorem halo_init {N cap : Nat} (out : Arr Nat) (h : out.size = cap) :
    (⟨⟨N, fun _ => 0⟩, out, 0⟩ : HaloSt).Is N cap [] :=
  ⟨rfl, h, rfl, by simp, by simp, by simp, by simp⟩

/-- The list that `indexGraph` finds. -/
def graphList (B : Ell R) (core : List Nat) (dj : Bool) : List Nat :=
  let L := addAll (addAll [] core) (B.colsOfRows core)
  if dj then addAll L (B.colsOfRows L) else L

/-- The list that `indexMatrix` finds. -/
def matrixList (A B : Ell R) (core : List Nat) (dj : Bool) : List Nat :=
  let L := addAll (addAll (addAll [] core) (B.colsOfRows core)) (A.colsOfRows core)
  if dj then addAll L (B.colsOfRows L) else L

theorem wp_indexGraph {N nsize : Nat} {B : Ell R} {b : Spec.Mat R} (hB : B.Rep N b)
    {nodelist out : Arr Nat} (hsz : nsize ≤ nodelist.size)
    (hlt : ∀ j, j < nsize → nodelist.get j < N) (dj : Bool)
    (hcap : (graphList B (nodes nodelist nsize) dj).length ≤ out.size) :
    (indexGraph B nodelist nsize out dj).wp E (fun r =>
      (∃ s : HaloSt, s.Is N out.size (graphList B (nodes nodelist nsize) dj) ∧ s.out = r.1 ∧
        s.l = r.2.1) ∧ r.2.2 = (addAll [] (nodes nodelist nsize)).length) := by
  have hc2 : (addAll (addAll [] (nodes nodelist nsize))
      (B.colsOfRows (nodes nodelist nsize))).length ≤ out.size := by
    refine le_trans ?_ hcap
    unfold graphList
    split
    · exact (addAll_prefix _ _).length_le
    · exact le_refl _
  have hc1 := le_trans (addAll_prefix (addAll [] (nodes nodelist nsize))
      (B.colsOfRows (nodes nodelist nsize))).length_le hc2
  unfold indexGraph
  rw [Res.wp_bind, hB.dim]
  refine Res.wp_mono (wp_haloCore hsz hlt (halo_init out rfl) hc1) ?_
  intro s1 h1
  rw [Res.wp_bind]
  refine Res.wp_mono (wp_haloNeigh hB hsz hlt h1 hc2) ?_
  intro s2 h2
  rw [Res.wp_bind]
  cases dj with
  | false =>
    simp only [Bool.false_eq_true, if_false, Res.pure_eq, Res.wp_ok]
    exact ⟨⟨s2, h2, rfl, rfl⟩, h1.len⟩
  | true =>
    simp only [if_true]
    refine Res.wp_mono (wp_doubleJump hB h2 hcap) ?_
    intro s3 h3
    exact ⟨⟨s3, h3, rfl, rfl⟩, h1.len⟩

theorem wp_indexMatrix {N nsize : Nat} {A B : Ell R} {a b : Spec.Mat R} (hA : A.Rep N a)
    (hB : B.Rep N b) {nodelist out : Arr Nat} (hsz : nsize ≤ nodelist.size)
    (hlt : ∀ j, j < nsize → nodelist.get j < N) (dj : Bool)
    (hcap : (matrixList A B (nodes nodelist nsize) dj).length ≤ out.size) :
    (indexMatrix A B nodelist nsize out dj).wp E (fun r =>
      (∃ s : HaloSt, s.Is N out.size (matrixList A B (nodes nodelist nsize) dj) ∧ s.out = r.1 ∧
        s.l = r.2.1) ∧ r.2.2 = (addAll [] (nodes nodelist nsize)).length) := by
  have hc3 : (addAll (addAll (addAll [] (nodes nodelist nsize))
      (B.colsOfRows (nodes nodelist nsize))) (A.colsOfRows (nodes nodelist nsize))).length ≤
      out.size := by
    refine le_trans ?_ hcap
    unfold matrixList
    split
    · exact (addAll_prefix _ _).length_le
    · exact le_refl _
  have hc2 := le_trans (addAll_prefix (addAll (addAll [] (nodes nodelist nsize))
      (B.colsOfRows (nodes nodelist nsize))) (A.colsOfRows (nodes nodelist nsize))).length_le hc3
  have hc1 := le_trans (addAll_prefix (addAll [] (nodes nodelist nsize))
      (B.colsOfRows (nodes nodelist nsize))).length_le hc2
  unfold indexMatrix
  rw [Res.wp_bind, hA.dim]
  refine Res.wp_mono (wp_haloCore hsz hlt (halo_init out rfl) hc1) ?_
  intro s1 h1
  rw [Res.wp_bind]
  refine Res.wp_mono (wp_haloNeigh hB hsz hlt h1 hc2) ?_
  intro s2 h2
  rw [Res.wp_bind]
  refine Res.wp_mono (wp_haloNeigh hA hsz hlt h2 hc3) ?_
  intro s2' h2'
  rw [Res.wp_bind]
  cases dj with
  | false =>
    simp only [Bool.false_eq_true, if_false, Res.pure_eq, Res.wp_ok]
    exact ⟨⟨s2', h2', rfl, rfl⟩, h1.len⟩
  | true =>
    simp only [if_true]
    refine Res.wp_mono (wp_doubleJump hB h2' hcap) ?_
    intro s3 h3
    exact ⟨⟨s3, h3, rfl, rfl⟩, h1.len⟩

theorem addAll_lt {N : Nat} {L ks : List Nat} (h1 : ∀ k ∈ L, k < N) (h2 : ∀ k ∈ ks, k < N) :
    ∀ k ∈ addAll L ks, k < N := fun k hk => (addAll_mem.1 hk).elim (h1 k) (h2 k)

theorem colsOfRows_lt {N : Nat} {B : Ell R} {b : Spec.Mat R} (hB : B.Rep N b) {is : List Nat}
    (h : ∀ i ∈ is, i < N) : ∀ k ∈ B.colsOfRows is, k < N := by
  intro k hk
  unfold colsOfRows at hk
  obtain ⟨i, hi, hk⟩ := List.mem_flatMap.1 hk
  obtain ⟨p, hp, rfl⟩ := List.mem_map.1 hk
  exact (hB.rowSat (h i hi)).2.1.2 p hp

end Ell

end Bml
