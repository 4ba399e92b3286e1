import Verif.Props.EllHalo
import Verif.Ellpack.Adjacency
import Mathlib.Tactic.IntervalCases

/-!
# Property theorems: adjacency lists (C51, ELLPACK)

The result is the pair of arrays `xadj`, `adjncy` of the graph libraries: the neighbours of node `i`
are the cells `xadj[i] .. xadj[i+1]-1` of `adjncy` (all numbers one larger if the result is 1-based).
-/

namespace Bml.Props

open Bml Bml.Ell

variable {R : Type} [CommRing R]

/-- The list of neighbours that `xadj`, `adjncy` give for node `i`, with numbers counted from
`base`. -/
def neighbours (xadj : Arr Int) (adj : Arr Nat) (base i : Nat) : List Nat :=
  (List.range (xadj.get (i + 1) - xadj.get i).toNat).map
    (fun p => adj.get ((xadj.get i - base).toNat + p))

/-- `xadj`, `adjncy` describe, counting from `base`, the graph on `n` nodes whose edges are given by
`edge`: the segments lie one behind the other inside `adjncy`, and each lists the neighbours of its
node in increasing order. -/
structure IsGraph (xadj : Arr Int) (adj : Arr Nat) (base n : Nat) (edge : Nat → Nat → Prop) :
    Prop where
  first : xadj.get 0 = base
  mono : ∀ i, i < n → xadj.get i ≤ xadj.get (i + 1)
  inside : xadj.get n - base ≤ adj.size
  sorted : ∀ i, i < n → (neighbours xadj adj base i).Pairwise (· < ·)
  mem : ∀ i, i < n → ∀ v, v ∈ neighbours xadj adj base i ↔ ∃ c, edge i c ∧ v = c + base

theorem neighbours_eq {x : Arr Int} {adj : Arr Nat} {base i : Nat} {len : Nat → Nat} {L : List Nat}
    (h1 : x.get i = (segStart len i : Int) + (base : Int))
    (h2 : x.get (i + 1) = (segStart len (i + 1) : Int) + (base : Int)) (hL : L.length = len i)
    (hs : SegAt adj (segStart len i) L) : neighbours x adj base i = L := by
  unfold neighbours
  have e1 : (x.get (i + 1) - x.get i).toNat = len i := by
    rw [h1, h2]; simp only [segStart]; omega
  have e2 : (x.get i - base).toNat = segStart len i := by rw [h1]; omega
  rw [e1, e2]
  apply List.ext_getElem
  · simp [hL]
  · intro p g1 g2
    simp only [List.getElem_map, List.getElem_range]
    exact hs p g2

theorem isGraph_of {x : Arr Int} {adj : Arr Nat} {base n : Nat} {len : Nat → Nat}
    {L : Nat → List Nat} {edge : Nat → Nat → Prop}
    (hx : ∀ i, i ≤ n → x.get i = (segStart len i : Int) + (base : Int))
    (hsz : segStart len n ≤ adj.size) (hL : ∀ i, i < n → (L i).length = len i)
    (hs : ∀ i, i < n → SegAt adj (segStart len i) (L i))
    (hsort : ∀ i, i < n → (L i).Pairwise (· < ·))
    (hmem : ∀ i, i < n → ∀ v, v ∈ L i ↔ ∃ c, edge i c ∧ v = c + base) :
    IsGraph x adj base n edge := by
  have hn : ∀ i, i < n → neighbours x adj base i = L i := fun i hi =>
    neighbours_eq (hx i (by omega)) (hx (i + 1) (by omega)) (hL i hi) (hs i hi)
  refine ⟨?_, ?_, ?_, ?_, ?_⟩
  · rw [hx 0 (Nat.zero_le _)]; simp [segStart]
  · intro i hi
    rw [hx i (by omega), hx (i + 1) (by omega)]
    simp only [segStart]; omega
  · rw [hx n (le_refl _)]; omega
  · intro i hi; rw [hn i hi]; exact hsort i hi
  · intro i hi; rw [hn i hi]; exact hmem i hi

omit [CommRing R] in
theorem pairwise_lt_sort {L : List Nat} (hn : L.Nodup) :
    (L.insertionSort (· ≤ ·)).Pairwise (· < ·) := by
  have h1 := List.pairwise_insertionSort (· ≤ ·) L
  have h2 : (L.insertionSort (· ≤ ·)).Nodup := (List.perm_insertionSort (· ≤ ·) L).nodup_iff.2 hn
  exact (h1.and h2).imp (fun h => by omega)

/-- **C51 (partial)**, `bml_adjacency`: if either all or none of the diagonal elements are stored,
then for any matrix with at least one row, any schedules and arrays that are large enough the result
is the graph of the stored off-diagonal elements, 0- or 1-based.  Missing: matrices that store some of
the diagonal elements only (`C51_mixed_diagonal_lost`, `C51_mixed_diagonal_junk`). -/
theorem C51_adjacency_partial {N : Nat} {A : Ell R} {a : Spec.Mat R} (hA : A.Represents N a)
    (hN : 0 < N) (hdiag : (∀ i, i < N → A.Stored i i) ∨ (∀ i, i < N → ¬ A.Stored i i))
    {x : Arr Int} (hx : N + 1 ≤ x.size) {adj : Arr Nat}
    (hsz : (∑ i ∈ Finset.range N, ((Finset.range N).filter
      (fun j => A.Stored i j ∧ j ≠ i)).card) ≤ adj.size) (base : Bool)
    {sc1 sc2 sc3 : Sched} (h1 : IsSched 0 N sc1) (h2 : IsSched 0 N sc2) (h3 : IsSched 0 N sc3) :
    ∃ x' adj', adjacency A x adj base sc1 sc2 sc3 = .ok (x', adj') ∧ x'.size = x.size ∧
      adj'.size = adj.size ∧
      IsGraph x' adj' (if base then 1 else 0) N (fun i j => A.Stored i j ∧ j ≠ i) := by
  have hR := represents_iff.1 hA
  have hcard : ∀ i, i < N → (A.offCols i).length =
      ((Finset.range N).filter (fun j => A.Stored i j ∧ j ≠ i)).card := by
    intro i hi
    rw [← List.toFinset_card_of_nodup (offCols_nodup hR hi)]
    congr 1
    ext c
    simp only [List.mem_toFinset, mem_offCols, Finset.mem_filter, Finset.mem_range]
    constructor
    · intro h
      refine ⟨?_, h⟩
      obtain ⟨p, hp, rfl⟩ := List.mem_map.1 (stored_iff.1 h.1)
      exact (hR.good i hi).2 p hp
    · exact And.right
  have hsum : ∀ m, m ≤ N → segStart (fun i => (A.offCols i).length) m =
      ∑ i ∈ Finset.range m, ((Finset.range N).filter (fun j => A.Stored i j ∧ j ≠ i)).card := by
    intro m
    induction m with
    | zero => intro _; rfl
    | succ m ih =>
      intro hm
      rw [Finset.sum_range_succ, ← ih (by omega), ← hcard m (by omega)]
      rfl
  have hsz' : segStart (fun i => (A.offCols i).length) N ≤ adj.size := by
    rw [hsum N (le_refl _)]; exact hsz
  obtain ⟨⟨x', adj'⟩, e, g1, g2, g3, g4⟩ := Res.wp_exists
    (wp_adjacency (E := False) hR hN hdiag hx hsz' base h1 h2 h3)
  refine ⟨x', adj', e, g1, g2, isGraph_of (L := fun i => adjLists A base i)
    (len := fun i => (A.offCols i).length) ?_ ?_ ?_ g4 ?_ ?_⟩
  · intro i hi
    rw [g3 i hi]
    cases base <;> rfl
  · simp only at g2; rw [g2]; exact hsz'
  · intro i hi
    unfold adjLists
    cases base <;> simp
  · intro i hi
    have := pairwise_lt_sort (offCols_nodup hR hi)
    unfold adjLists
    cases base with
    | false => simpa using this
    | true =>
      simp only [if_true]
      rw [List.pairwise_map]
      exact this.imp (fun h => by omega)
  · intro i hi v
    unfold adjLists
    cases base with
    | false => simp [mem_offCols]
    | true =>
      simp only [if_true, List.mem_map, List.mem_insertionSort, mem_offCols]
      constructor
      · rintro ⟨c, hc, rfl⟩; exact ⟨c, hc, rfl⟩
      · rintro ⟨c, hc, rfl⟩; exact ⟨c, hc, rfl⟩

example : ∃ x' adj', adjacency exChain ⟨6, fun _ => 7⟩ ⟨8, fun _ => 7⟩ true
    (seqSched 0 5) (seqSched 0 5) (seqSched 0 5) = .ok (x', adj') ∧ x'.size = 6 ∧ adj'.size = 8 ∧
      IsGraph x' adj' 1 5 (fun i j => exChain.Stored i j ∧ j ≠ i) :=
  C51_adjacency_partial exChain_rep (by decide) (Or.inl (by decide)) (by decide) (by decide) true
    (isSched_seq 0 5) (isSched_seq 0 5) (isSched_seq 0 5)

/-- **C51 fails** when row 0 stores its diagonal element and another row does not: the edge from node
1 to node 2 is overwritten. -/
theorem C51_mixed_diagonal_lost :
    let A : Ell Int := ofRows 3 2 (fun i => if i = 1 then [(0, 1), (2, 1)] else [(i, 1), (1, 1)])
    (do let r ← adjacency A ⟨4, fun _ => 0⟩ ⟨8, fun _ => 0⟩ false (seqSched 0 3) (seqSched 0 3)
          (seqSched 0 3)
        pure (neighbours r.1 r.2 0 1)) = .ok [0] ∧ A.Stored 1 2 := by decide

/-- **C51 fails** when row 0 does not store its diagonal element and another row does: the list of node
1 contains what was in the memory before. -/
theorem C51_mixed_diagonal_junk :
    let A : Ell Int := ofRows 2 2 (fun i => if i = 0 then [(1, 1)] else [(0, 1), (1, 1)])
    (do let r ← adjacency A ⟨3, fun _ => 0⟩ ⟨3, fun _ => 77⟩ false (seqSched 0 2) (seqSched 0 2)
          (seqSched 0 2)
        pure (neighbours r.1 r.2 0 1)) = .ok [0, 77] := by decide

/-! ## Groups -/

/-- The number of pairs of groups that are listed. -/
def groupEdges (A : Ell R) (h : Nat → Nat) (nn : Nat) : Nat :=
  ∑ i ∈ Finset.range nn, ((Finset.range nn).filter
    (fun j => A.Stored (h i - 1) (h j - 1))).card

theorem segStart_grp (A : Ell R) (h : Nat → Nat) (nn : Nat) :
    segStart (fun i => (grpAdj A h nn i).length) nn = groupEdges A h nn := by
  have hcard : ∀ i, (grpAdj A h nn i).length = ((Finset.range nn).filter
    (fun j => A.Stored (h i - 1) (h j - 1))).card := by
    intro i
    unfold grpAdj
    rw [← List.toFinset_card_of_nodup (List.nodup_range.filter _)]
    congr 1
    ext c
    simp
  have : ∀ m, segStart (fun i => (grpAdj A h nn i).length) m =
      ∑ i ∈ Finset.range m, ((Finset.range nn).filter
        (fun j => A.Stored (h i - 1) (h j - 1))).card := by
    intro m
    induction m with
    | zero => rfl
    | succ m ih =>
      rw [Finset.sum_range_succ, ← ih, ← hcard m]
      rfl
  exact this nn

theorem grpAdj_sorted (A : Ell R) (h : Nat → Nat) (nn i : Nat) :
    (grpAdj A h nn i).Pairwise (· < ·) := List.pairwise_lt_range.filter _

theorem mem_grpAdj {A : Ell R} {h : Nat → Nat} {nn i v : Nat} :
    v ∈ grpAdj A h nn i ↔ v < nn ∧ A.Stored (h i - 1) (h v - 1) := by
  simp [grpAdj]

/-- **C51**, `bml_adjacency_group`, 0-based: for any list of first rows (1-based, in range) the result
is the graph in which two groups are joined when the first row of one stores the first row of the
other as a column.  A group is its own neighbour when that diagonal element is stored. -/
theorem C51_adjacency_group {N nn : Nat} {A : Ell R} {a : Spec.Mat R} (hA : A.Represents N a)
    {hindex : Arr Nat} (hs : nn ≤ hindex.size)
    (hpos : ∀ i, i < nn → 1 ≤ hindex.get i ∧ hindex.get i ≤ N) {x : Arr Int} (hx : nn + 1 ≤ x.size)
    {adj : Arr Nat} (hsz : groupEdges A hindex.get nn ≤ adj.size) {sc : Sched}
    (hsc : IsSched 0 nn sc) :
    ∃ x' adj', adjacencyGroup A hindex nn x adj false sc = .ok (x', adj') ∧
      IsGraph x' adj' 0 nn (fun i j => j < nn ∧
        A.Stored (hindex.get i - 1) (hindex.get j - 1)) := by
  rw [← segStart_grp] at hsz
  have key := wp_adjacencyGroup (E := False) (represents_iff.1 hA) hs hpos hx hsz hsc
    (k := fun x adj => pure (x, adj)) (Q := fun r => IsGraph r.1 r.2 0 nn (fun i j => j < nn ∧
        A.Stored (hindex.get i - 1) (hindex.get j - 1))) ?_
  · obtain ⟨⟨x', adj'⟩, e, h⟩ := Res.wp_exists key
    refine ⟨x', adj', ?_, h⟩
    rw [← e]
    rfl
  · intro x' adj' h1 h2 h3 h4
    refine isGraph_of (L := fun i => grpAdj A hindex.get nn i)
      (len := fun i => (grpAdj A hindex.get nn i).length) ?_ ?_ (fun _ _ => rfl) h4
      (fun i _ => grpAdj_sorted _ _ _ _) ?_
    · intro i hi; rw [h3 i hi]; simp
    · rw [h2]; exact hsz
    · intro i hi v
      rw [mem_grpAdj]
      simp

/-- **C51 (partial)**, `bml_adjacency_group`, 1-based: correct if `adjncy` has at least one cell more
than there are edges.  Missing: arrays of exactly the right size, see
`C51_adjacency_group_overrun`. -/
theorem C51_adjacency_group_one_based_partial {N nn : Nat} {A : Ell R} {a : Spec.Mat R}
    (hA : A.Represents N a) {hindex : Arr Nat} (hs : nn ≤ hindex.size)
    (hpos : ∀ i, i < nn → 1 ≤ hindex.get i ∧ hindex.get i ≤ N) {x : Arr Int} (hx : nn + 1 ≤ x.size)
    {adj : Arr Nat} (hsz : groupEdges A hindex.get nn < adj.size) {sc : Sched}
    (hsc : IsSched 0 nn sc) :
    ∃ x' adj', adjacencyGroup A hindex nn x adj true sc = .ok (x', adj') ∧
      IsGraph x' adj' 1 nn (fun i j => j < nn ∧
        A.Stored (hindex.get i - 1) (hindex.get j - 1)) := by
  rw [← segStart_grp] at hsz
  have key := wp_adjacencyGroup (E := False) (represents_iff.1 hA) hs hpos hx (le_of_lt hsz) hsc
    (k := fun xadj adj => do
      let m ← xadj.read nn
      let adj ← loop (m + 1).toNat adj fun i adj => do
        let v ← adj.read i
        adj.write i (v + 1)
      let xadj ← xadjBump (nn + 1) xadj
      pure (xadj, adj)) (Q := fun r => IsGraph r.1 r.2 1 nn (fun i j => j < nn ∧
        A.Stored (hindex.get i - 1) (hindex.get j - 1))) ?_
  · obtain ⟨⟨x', adj'⟩, e, h⟩ := Res.wp_exists key
    refine ⟨x', adj', ?_, h⟩
    rw [← e]
    rfl
  · intro x' adj' h1 h2 h3 h4
    set len : Nat → Nat := fun i => (grpAdj A hindex.get nn i).length with hlen
    rw [Arr.read_ok (by omega), Res.bind_ok, h3 nn (le_refl _),
      show ((segStart len nn : Int) + 1).toNat = segStart len nn + 1 by omega, Res.wp_bind]
    refine Res.wp_mono (wp_bumpAll (by omega)) ?_
    rintro adj2 ⟨b1, b2⟩
    rw [Res.wp_bind]
    refine Res.wp_mono (wp_xadjBump (by omega)) ?_
    rintro x2 ⟨u1, u2⟩
    simp only [Res.pure_eq, Res.wp_ok]
    refine isGraph_of (L := fun i => (grpAdj A hindex.get nn i).map (· + 1)) (len := len) ?_ ?_
      (fun _ _ => by simp [hlen]) ?_ ?_ ?_
    · intro i hi; rw [u2 i (by omega), h3 i hi]; simp
    · rw [b1, h2]; omega
    · intro i hi p hp
      rw [List.length_map] at hp
      have hm := segStart_mono len (show i + 1 ≤ nn by omega)
      simp only [segStart] at hm
      have hp' : p < len i := hp
      rw [b2 _ (by omega), h4 i hi p hp]
      simp
    · intro i hi
      rw [List.pairwise_map]
      exact (grpAdj_sorted A hindex.get nn i).imp (fun h => by omega)
    · intro i hi v
      simp only [List.mem_map, mem_grpAdj]
      constructor
      · rintro ⟨c, hc, rfl⟩; exact ⟨c, hc, rfl⟩
      · rintro ⟨c, hc, rfl⟩; exact ⟨c, hc, rfl⟩

/-- **C51 fails**, 1-based groups: if `adjncy` has exactly one cell per edge, the call writes past its
end, for every matrix and every list of groups. -/
theorem C51_adjacency_group_overrun {N nn : Nat} {A : Ell R} {a : Spec.Mat R}
    (hA : A.Represents N a) {hindex : Arr Nat} (hs : nn ≤ hindex.size)
    (hpos : ∀ i, i < nn → 1 ≤ hindex.get i ∧ hindex.get i ≤ N) {x : Arr Int} (hx : nn + 1 ≤ x.size)
    {adj : Arr Nat} (hsz : groupEdges A hindex.get nn = adj.size) {sc : Sched}
    (hsc : IsSched 0 nn sc) :
    adjacencyGroup A hindex nn x adj true sc = .ub := by
  rw [← segStart_grp] at hsz
  have key := wp_adjacencyGroup (E := False) (represents_iff.1 hA) hs hpos hx (le_of_eq hsz) hsc
    (k := fun xadj adj => .ok (do
      let m ← xadj.read nn
      let adj ← loop (m + 1).toNat adj fun i adj => do
        let v ← adj.read i
        adj.write i (v + 1)
      let xadj ← xadjBump (nn + 1) xadj
      pure (xadj, adj) : Res (Arr Int × Arr Nat))) (Q := fun r => r = .ub) ?_
  · obtain ⟨r, e, h⟩ := Res.wp_exists key
    subst h
    unfold adjacencyGroup
    simp only [if_true]
    cases h1 : groupFirst hindex nn with
    | error => rw [h1] at e; cases e
    | ub => rfl
    | ok hn =>
      rw [h1] at e
      simp only [Res.bind_ok] at e ⊢
      cases h2 : x.write 0 0 with
      | error => rw [h2] at e; cases e
      | ub => rfl
      | ok x1 =>
        rw [h2] at e
        simp only [Res.bind_ok] at e ⊢
        cases h3 : loop nn x1 fun i xadj => groupCount A hn nn i xadj with
        | error => rw [h3] at e; cases e
        | ub => rfl
        | ok x2 =>
          rw [h3] at e
          simp only [Res.bind_ok] at e ⊢
          cases h4 : forList sc adj fun ti adj => groupAdjFill A hn nn x2 ti.2 adj with
          | error => rw [h4] at e; cases e
          | ub => rfl
          | ok adj2 =>
            rw [h4] at e
            simp only [Res.bind_ok] at e ⊢
            injection e
  · intro x' adj' h1 h2 h3 h4
    simp only [Res.wp_ok]
    rw [Arr.read_ok (by omega), Res.bind_ok, h3 nn (le_refl _), bumpAll_ub (by omega)]
    rfl

/-- Groups of the chain with first rows `0`, `2`, `3`. -/
def exFirst : Arr Nat := ⟨3, fun i => [1, 3, 4].getD i 0⟩

example : ∃ x' adj', adjacencyGroup exChain exFirst 3 ⟨4, fun _ => 7⟩ ⟨6, fun _ => 7⟩ true
    (seqSched 0 3) = .ok (x', adj') ∧ IsGraph x' adj' 1 3 (fun i j => j < 3 ∧
        exChain.Stored (exFirst.get i - 1) (exFirst.get j - 1)) :=
  C51_adjacency_group_one_based_partial exChain_rep (by decide) (by decide) (by decide) (by decide)
    (isSched_seq 0 3)

example : adjacencyGroup exChain exFirst 3 ⟨4, fun _ => 7⟩ ⟨5, fun _ => 7⟩ true (seqSched 0 3) = .ub :=
  C51_adjacency_group_overrun exChain_rep (by decide) (by decide) (by decide) (by decide)
    (isSched_seq 0 3)

example : ∃ x' adj', adjacencyGroup exChain exFirst 3 ⟨4, fun _ => 7⟩ ⟨5, fun _ => 7⟩ false
    (seqSched 0 3) = .ok (x', adj') ∧ IsGraph x' adj' 0 3 (fun i j => j < 3 ∧
        exChain.Stored (exFirst.get i - 1) (exFirst.get j - 1)) :=
  C51_adjacency_group exChain_rep (by decide) (by decide) (by decide) (by decide)
    (isSched_seq 0 3)

/-- `bml_adjacency_group` lists a group as its own neighbour, `bml_adjacency` does not. -/
theorem C51_group_self_loop :
    (do let r ← adjacencyGroup exChain exFirst 3 ⟨4, fun _ => 7⟩ ⟨5, fun _ => 7⟩ false (seqSched 0 3)
        pure (neighbours r.1 r.2 0 0)) = .ok [0] := by decide

end Bml.Props
