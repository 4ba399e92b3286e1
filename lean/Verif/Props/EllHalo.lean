import Verif.Props.EllSub
import Verif.Ellpack.Halo

/-!
# Property theorems: index lists of a core and its halo (C50, ELLPACK)
-/

namespace Bml.Props

open Bml Bml.Ell Bml.Halo

variable {R : Type} [CommRing R]

/-- The first `m` cells of an array. -/
def listed (out : Arr Nat) (m : Nat) : List Nat := (List.range m).map out.get

omit [CommRing R] in
theorem listed_of_is {N cap : Nat} {s : HaloSt} {L : List Nat} (h : s.Is N cap L) :
    listed s.out s.l = L := by
  unfold listed
  apply List.ext_getElem
  · simp [h.len]
  · intro n h1 h2
    simp only [List.getElem_map, List.getElem_range]
    exact h.get n h2

omit [CommRing R] in
theorem nodes_eq_listed (nodelist : Arr Nat) (n : Nat) : nodes nodelist n = listed nodelist n := rfl

/-- `i` is a row of the core or halo that one jump from the core through `B` reaches. -/
def Near (B : Ell R) (core : List Nat) (j : Nat) : Prop :=
  j ∈ core ∨ ∃ i ∈ core, B.Stored i j

/-- The same through the graphs of `B` or `A`. -/
def Near2 (A B : Ell R) (core : List Nat) (j : Nat) : Prop :=
  j ∈ core ∨ (∃ i ∈ core, B.Stored i j) ∨ ∃ i ∈ core, A.Stored i j

theorem mem_graphList {B : Ell R} {core : List Nat} {dj : Bool} {j : Nat} :
    j ∈ graphList B core dj ↔
      Near B core j ∨ (dj = true ∧ ∃ i, Near B core i ∧ B.Stored i j) := by
  have h1 : ∀ j, j ∈ addAll (addAll [] core) (B.colsOfRows core) ↔ Near B core j := by
    intro j
    rw [addAll_mem, addAll_mem, mem_colsOfRows]
    simp [Near]
  unfold graphList
  cases dj with
  | false => simp [h1]
  | true =>
    simp only [if_true, true_and]
    rw [addAll_mem, mem_colsOfRows, h1]
    refine or_congr_right ?_
    constructor
    · rintro ⟨i, hi, h⟩; exact ⟨i, (h1 i).1 hi, h⟩
    · rintro ⟨i, hi, h⟩; exact ⟨i, (h1 i).2 hi, h⟩

theorem mem_matrixList {A B : Ell R} {core : List Nat} {dj : Bool} {j : Nat} :
    j ∈ matrixList A B core dj ↔
      Near2 A B core j ∨ (dj = true ∧ ∃ i, Near2 A B core i ∧ B.Stored i j) := by
  have h1 : ∀ j, j ∈ addAll (addAll (addAll [] core) (B.colsOfRows core)) (A.colsOfRows core) ↔
      Near2 A B core j := by
    intro j
    rw [addAll_mem, addAll_mem, addAll_mem, mem_colsOfRows, mem_colsOfRows]
    simp [Near2, or_assoc]
  unfold matrixList
  cases dj with
  | false => simp [h1]
  | true =>
    simp only [if_true, true_and]
    rw [addAll_mem, mem_colsOfRows, h1]
    refine or_congr_right ?_
    constructor
    · rintro ⟨i, hi, h⟩; exact ⟨i, (h1 i).1 hi, h⟩
    · rintro ⟨i, hi, h⟩; exact ⟨i, (h1 i).2 hi, h⟩

omit [CommRing R] in
theorem nodes_lt {N nsize : Nat} {nodelist : Arr Nat}
    (hlt : ∀ j, j < nsize → nodelist.get j < N) : ∀ k ∈ nodes nodelist nsize, k < N := by
  intro k hk
  obtain ⟨j, hj, rfl⟩ := List.mem_map.1 hk
  exact hlt j (List.mem_range.1 hj)

theorem length_le_of {N : Nat} {L : List Nat} (hn : L.Nodup) (hl : ∀ k ∈ L, k < N) :
    L.length ≤ N := by
  have h2 : L.toFinset ⊆ Finset.range N := by
    intro a ha
    simp only [List.mem_toFinset] at ha
    simpa using hl a ha
  have h3 := Finset.card_le_card h2
  rw [List.toFinset_card_of_nodup hn] at h3
  simpa using h3

theorem graphList_lt {N : Nat} {B : Ell R} {b : Spec.Mat R} (hB : B.Rep N b) {core : List Nat}
    (h : ∀ i ∈ core, i < N) (dj : Bool) : ∀ k ∈ graphList B core dj, k < N := by
  have h1 := addAll_lt (addAll_lt (L := []) (by simp) h) (colsOfRows_lt hB h)
  unfold graphList
  cases dj with
  | false => simpa using h1
  | true => simpa using addAll_lt h1 (colsOfRows_lt hB h1)

theorem graphList_nodup (B : Ell R) (core : List Nat) (dj : Bool) :
    (graphList B core dj).Nodup := by
  unfold graphList
  have h := addAll_nodup (addAll_nodup List.nodup_nil core) (B.colsOfRows core)
  cases dj with
  | false => simpa using h
  | true => simpa using addAll_nodup h _

theorem graphList_prefix (B : Ell R) (core : List Nat) (dj : Bool) :
    addAll [] core <+: graphList B core dj := by
  unfold graphList
  cases dj with
  | false => simpa using addAll_prefix _ _
  | true => simpa using (addAll_prefix _ _).trans (addAll_prefix _ _)

theorem matrixList_lt {N : Nat} {A B : Ell R} {a b : Spec.Mat R} (hA : A.Rep N a) (hB : B.Rep N b)
    {core : List Nat} (h : ∀ i ∈ core, i < N) (dj : Bool) :
    ∀ k ∈ matrixList A B core dj, k < N := by
  have h1 := addAll_lt (addAll_lt (addAll_lt (L := []) (by simp) h) (colsOfRows_lt hB h))
    (colsOfRows_lt hA h)
  unfold matrixList
  cases dj with
  | false => simpa using h1
  | true => simpa using addAll_lt h1 (colsOfRows_lt hB h1)

theorem matrixList_nodup (A B : Ell R) (core : List Nat) (dj : Bool) :
    (matrixList A B core dj).Nodup := by
  unfold matrixList
  have h := addAll_nodup (addAll_nodup (addAll_nodup List.nodup_nil core) (B.colsOfRows core))
    (A.colsOfRows core)
  cases dj with
  | false => simpa using h
  | true => simpa using addAll_nodup h _

theorem matrixList_prefix (A B : Ell R) (core : List Nat) (dj : Bool) :
    addAll [] core <+: matrixList A B core dj := by
  unfold matrixList
  cases dj with
  | false => simpa using (addAll_prefix _ _).trans (addAll_prefix _ _)
  | true => simpa using ((addAll_prefix _ _).trans (addAll_prefix _ _)).trans (addAll_prefix _ _)

omit [CommRing R] in
theorem listed_prefix {N cap : Nat} {s : HaloSt} {L L' : List Nat} (h : s.Is N cap L)
    (hp : L' <+: L) : listed s.out L'.length = L' := by
  have h1 := listed_of_is h
  have h2 : listed s.out L'.length = (listed s.out s.l).take L'.length := by
    unfold listed
    rw [← List.map_take, List.take_range, Nat.min_eq_left (by rw [h.len]; exact hp.length_le)]
  rw [h2, h1]
  exact (List.prefix_iff_eq_take.1 hp).symm

/-- **C50.**  `bml_matrix2submatrix_index_graph`: for any list of in-range nodes (repetitions
allowed), any graph `B` and any output array of at least `N` cells the call returns, writes `r.2.1`
distinct indices, of which the first `r.2.2` are the nodes of the core and which are in all exactly
the core, its neighbours and, with the double jump, their neighbours. -/
theorem C50_index_graph {N nsize : Nat} {B : Ell R} {b : Spec.Mat R} (hB : B.Represents N b)
    {nodelist out : Arr Nat} (hsz : nsize ≤ nodelist.size)
    (hlt : ∀ j, j < nsize → nodelist.get j < N) (hout : N ≤ out.size) (dj : Bool) :
    ∃ out' l ll, indexGraph B nodelist nsize out dj = .ok (out', l, ll) ∧
      out'.size = out.size ∧ l ≤ N ∧ ll ≤ l ∧ (listed out' l).Nodup ∧
      (∀ j, j ∈ listed out' ll ↔ j ∈ listed nodelist nsize) ∧
      ((listed nodelist nsize).Nodup → listed out' ll = listed nodelist nsize) ∧
      ∀ j, j ∈ listed out' l ↔ Near B (listed nodelist nsize) j ∨
        (dj = true ∧ ∃ i, Near B (listed nodelist nsize) i ∧ B.Stored i j) := by
  have hR := represents_iff.1 hB
  have hlen := length_le_of (graphList_nodup B (nodes nodelist nsize) dj)
    (graphList_lt hR (nodes_lt hlt) dj)
  obtain ⟨⟨out', l, ll⟩, e, ⟨s, hs, rfl, rfl⟩, h2⟩ := Res.wp_exists
    (wp_indexGraph (E := False) hR (out := out) hsz hlt dj (by omega))
  simp only at h2 e ⊢
  have hp := graphList_prefix B (nodes nodelist nsize) dj
  have hll : listed s.out ll = addAll [] (nodes nodelist nsize) := by
    rw [h2]; exact listed_prefix hs hp
  refine ⟨s.out, s.l, ll, e, hs.szo, by rw [hs.len]; exact hlen,
    by rw [hs.len, h2]; exact hp.length_le, ?_, ?_, ?_, ?_⟩
  · rw [listed_of_is hs]; exact hs.nodup
  · intro j
    rw [hll, addAll_mem, ← nodes_eq_listed]
    simp
  · intro hnd
    rw [hll, ← nodes_eq_listed, addAll_of_nodup (by simpa [nodes_eq_listed] using hnd)]
    rfl
  · intro j
    rw [listed_of_is hs]
    exact mem_graphList

/-- **C50.**  `bml_matrix2submatrix_index`: the same for the graphs of `B` and `A`; the double jump
goes through `B`. -/
theorem C50_index_matrix {N nsize : Nat} {A B : Ell R} {a b : Spec.Mat R} (hA : A.Represents N a)
    (hB : B.Represents N b) {nodelist out : Arr Nat} (hsz : nsize ≤ nodelist.size)
    (hlt : ∀ j, j < nsize → nodelist.get j < N) (hout : N ≤ out.size) (dj : Bool) :
    ∃ out' l ll, indexMatrix A B nodelist nsize out dj = .ok (out', l, ll) ∧
      out'.size = out.size ∧ l ≤ N ∧ ll ≤ l ∧ (listed out' l).Nodup ∧
      (∀ j, j ∈ listed out' ll ↔ j ∈ listed nodelist nsize) ∧
      ((listed nodelist nsize).Nodup → listed out' ll = listed nodelist nsize) ∧
      ∀ j, j ∈ listed out' l ↔ Near2 A B (listed nodelist nsize) j ∨
        (dj = true ∧ ∃ i, Near2 A B (listed nodelist nsize) i ∧ B.Stored i j) := by
  have hRA := represents_iff.1 hA
  have hR := represents_iff.1 hB
  have hlen := length_le_of (matrixList_nodup A B (nodes nodelist nsize) dj)
    (matrixList_lt hRA hR (nodes_lt hlt) dj)
  obtain ⟨⟨out', l, ll⟩, e, ⟨s, hs, rfl, rfl⟩, h2⟩ := Res.wp_exists
    (wp_indexMatrix (E := False) hRA hR (out := out) hsz hlt dj (by omega))
  simp only at h2 e ⊢
  have hp := matrixList_prefix A B (nodes nodelist nsize) dj
  have hll : listed s.out ll = addAll [] (nodes nodelist nsize) := by
    rw [h2]; exact listed_prefix hs hp
  refine ⟨s.out, s.l, ll, e, hs.szo, by rw [hs.len]; exact hlen,
    by rw [hs.len, h2]; exact hp.length_le, ?_, ?_, ?_, ?_⟩
  · rw [listed_of_is hs]; exact hs.nodup
  · intro j
    rw [hll, addAll_mem, ← nodes_eq_listed]
    simp
  · intro hnd
    rw [hll, ← nodes_eq_listed, addAll_of_nodup (by simpa [nodes_eq_listed] using hnd)]
    rfl
  · intro j
    rw [listed_of_is hs]
    exact mem_matrixList

/-- A chain `0 - 1 - 2 - 3 - 4`. -/
def exChain : Ell Int := ofRows 5 3 (fun i =>
  if i = 0 then [(0, 2), (1, 1)] else if i = 4 then [(3, 1), (4, 2)]
  else [(i - 1, 1), (i, 2), (i + 1, 1)])

theorem exChain_rep : exChain.Represents 5 (fun i j => SRow.den
    (if i = 0 then [(0, (2 : Int)), (1, 1)] else if i = 4 then [(3, 1), (4, 2)]
      else [(i - 1, 1), (i, 2), (i + 1, 1)]) j) := ofRows_rep (by decide)

example : ∃ out' l ll, indexGraph exChain ⟨2, fun k => 2 - k⟩ 2 ⟨5, fun _ => 0⟩ true =
      .ok (out', l, ll) ∧ listed out' ll = [2, 1] ∧ 4 ∈ listed out' l := by
  obtain ⟨out', l, ll, e, _, _, _, _, _, h1, h2⟩ := C50_index_graph exChain_rep
    (nodelist := ⟨2, fun k => 2 - k⟩) (nsize := 2) (out := ⟨5, fun _ => 0⟩) (by decide) (by decide)
    (by decide) true
  refine ⟨out', l, ll, e, h1 (by decide), (h2 4).2 (Or.inr ⟨rfl, 3, Or.inr ⟨2, ?_, ?_⟩, ?_⟩)⟩ <;>
    decide

example : ∃ out' l ll, indexMatrix exChain exChain ⟨2, fun k => 2 - k⟩ 2 ⟨5, fun _ => 0⟩ false =
      .ok (out', l, ll) ∧ listed out' ll = [2, 1] ∧ 3 ∈ listed out' l := by
  obtain ⟨out', l, ll, e, _, _, _, _, _, h1, h2⟩ := C50_index_matrix exChain_rep exChain_rep
    (nodelist := ⟨2, fun k => 2 - k⟩) (nsize := 2) (out := ⟨5, fun _ => 0⟩) (by decide) (by decide)
    (by decide) false
  exact ⟨out', l, ll, e, h1 (by decide), (h2 3).2 (Or.inl (Or.inr (Or.inl ⟨2, by decide, by decide⟩)))⟩

end Bml.Props
