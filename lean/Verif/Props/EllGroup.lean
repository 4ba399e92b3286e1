import Verif.Props.EllHalo
import Verif.Ellpack.Group

/-!
# Property theorems: the matrix of groups of rows (C49, ELLPACK)

`IsGroups N ng h`: `h` holds the 1-based first rows of `ng` consecutive groups of the rows
`0..N-1`.  `InGrp N ng h i j`: row `j` belongs to group `i`.
-/

namespace Bml.Props

open Bml Bml.Ell

variable {R : Type} [CommRing R]

/-- Group `i` is coupled to another group `c`: there is a stored element `A(j,k)`, `j` in group `i`,
`k` in group `c`, that is above the threshold, or whose row `k` has an element above the threshold in
group `i`. -/
def Coupled (A : Ell R) (a : Spec.Mat R) (N ng : Nat) (h : Nat → Nat) (big : R → Bool)
    (i c : Nat) : Prop :=
  c ≠ i ∧ ∃ j k, InGrp N ng h i j ∧ InGrp N ng h c k ∧ A.Stored j k ∧
    (big (a j k) = true ∨ ∃ l, InGrp N ng h i l ∧ A.Stored k l ∧ big (a k l) = true)

theorem mem_row_iff {N : Nat} {A : Ell R} {a : Spec.Mat R} (hA : A.Rep N a) {i : Nat} (hi : i < N)
    {p : Nat × R} : p ∈ A.row i ↔ A.Stored i p.1 ∧ p.2 = a i p.1 := by
  have hg := hA.good i hi
  constructor
  · intro hp
    refine ⟨stored_iff.2 (List.mem_map.2 ⟨p, hp, rfl⟩), ?_⟩
    rw [← hA.den i p.1 hi (hg.2 p hp), SRow.den_of_mem hg.1 hp]
  · rintro ⟨h1, h2⟩
    obtain ⟨q, hq, he⟩ := List.mem_map.1 (stored_iff.1 h1)
    have h3 : q.2 = a i q.1 := by
      rw [← hA.den i q.1 hi (hg.2 q hq), SRow.den_of_mem hg.1 hq]
    have : p = q := by
      apply Prod.ext
      · exact he.symm
      · rw [h2, h3, he]
    rw [this]; exact hq

theorem linkRows_iff {N ng : Nat} {A : Ell R} {a : Spec.Mat R} (hA : A.Rep N a) {h gr : Nat → Nat}
    (g : IsGroups N ng h) (hgr : ∀ i j, InGrp N ng h i j → gr j = i) (big : R → Bool) {i c : Nat}
    (hi : i < ng) :
    LinkRows A gr big (h i - 1) (grpEnd N ng h i) i c ↔ Coupled A a N ng h big i c := by
  have hin : ∀ {j i}, j < N → gr j = i → InGrp N ng h i j := by
    intro j i hj he
    obtain ⟨i', hi'⟩ := g.exists hj
    rw [← he, hgr i' j hi']; exact hi'
  constructor
  · rintro ⟨j, h1, h2, p, hp, h3, h4, h5⟩
    have hj : j < N := lt_of_lt_of_le h2 (g.end_le hi)
    have hk : p.1 < N := (hA.good j hj).2 p hp
    obtain ⟨s1, s2⟩ := (mem_row_iff hA hj).1 hp
    refine ⟨h4, j, p.1, ⟨hi, h1, h2⟩, hin hk h3, s1, ?_⟩
    rw [← s2]
    refine h5.imp id ?_
    rintro ⟨q, hq, g1, g2⟩
    obtain ⟨t1, t2⟩ := (mem_row_iff hA hk).1 hq
    exact ⟨q.1, hin ((hA.good _ hk).2 q hq) g1, t1, by rw [← t2]; exact g2⟩
  · rintro ⟨h4, j, k, h1, h2, h3, h5⟩
    have hj : j < N := lt_of_lt_of_le h1.2.2 (g.end_le hi)
    have hk : k < N := lt_of_lt_of_le h2.2.2 (g.end_le h2.1)
    refine ⟨j, h1.2.1, h1.2.2, (k, a j k), (mem_row_iff hA hj).2 ⟨h3, rfl⟩, hgr c k h2, h4, ?_⟩
    refine h5.imp id ?_
    rintro ⟨l, g1, g2, g3⟩
    exact ⟨(l, a k l), (mem_row_iff hA hk).2 ⟨g2, rfl⟩, hgr i l g1, g3⟩

/-- **C49, exact result** for every matrix, grouping, schedule and content of the fresh memory: the
result holds ones, on the diagonal and wherever a group is coupled to another group that does *not*
already appear in a row which the same thread handled before. -/
theorem C49_group_matrix_exact {N ng : Nat} {A : Ell R} {a : Spec.Mat R} (hA : A.Represents N a)
    {hindex : Arr Nat} (hsz : ng ≤ hindex.size) (g : IsGroups N ng hindex.get) (big : R → Bool)
    {sc : Sched} (hsc : IsSched 0 ng sc) (jv : Nat → R) (ji jh : Nat → Nat) :
    ∃ B, groupMatrix A hindex ng big sc jv ji jh = .ok B ∧ B.M = ng ∧
      B.Represents ng (fun i c => if B.Stored i c then 1 else 0) ∧
      ∀ before t i after, sc = before ++ (t, i) :: after → ∀ c,
        B.Stored i c ↔ c = i ∨ (Coupled A a N ng hindex.get big i c ∧
          ∀ i', (t, i') ∈ before → ¬ B.Stored i' c) := by
  have hR := represents_iff.1 hA
  obtain ⟨B, e, cf, gr, h1, h2, h3⟩ := Res.wp_exists
    (wp_groupMatrix (E := False) hR hsz g big hsc jv ji jh)
  have hst : ∀ i c, i < ng → (B.Stored i c ↔ c ∈ cf i) := by
    intro i c hi
    rw [stored_iff, h1.row i hi]
    simp [ones]
  refine ⟨B, e, h1.wid, ?_, ?_⟩
  · rw [represents_iff]
    refine h1.rep (fun i hi => ⟨?_, ?_⟩) (fun i j hi hj => ?_)
    · have : (ones (cf i) : SRow R).map Prod.fst = cf i := by simp [ones, Function.comp_def]
      rw [this]; exact h3.nodup i
    · intro p hp
      obtain ⟨c, hc, rfl⟩ := List.mem_map.1 hp
      exact h3.lt i c hc
    · have hm : (ones (cf i) : SRow R).map Prod.fst = cf i := by simp [ones, Function.comp_def]
      by_cases hc : j ∈ cf i
      · rw [if_pos ((hst i j hi).2 hc)]
        exact SRow.den_of_mem (by rw [hm]; exact h3.nodup i) (List.mem_map.2 ⟨j, hc, rfl⟩)
      · rw [if_neg (fun hh => hc ((hst i j hi).1 hh))]
        exact SRow.den_of_not_mem (by rw [hm]; exact hc)
  · intro before t i after hs c
    have hlt : ∀ i', i' ∈ sc.map Prod.snd → i' < ng := fun i' hi' => ((hsc.mem i').1 hi').2
    have hi : i < ng := hlt i (by rw [hs]; simp)
    rw [hst i c hi, h3.mem before t i after hs c, linkRows_iff hR g h2 big hi]
    refine or_congr_right (and_congr_right fun _ => ?_)
    refine forall_congr' fun i' => ?_
    constructor
    · intro hh hm
      rw [hst i' c (hlt i' (by rw [hs]; exact List.mem_map.2 ⟨(t, i'), by simp [hm], rfl⟩))]
      exact hh hm
    · intro hh hm
      rw [← hst i' c (hlt i' (by rw [hs]; exact List.mem_map.2 ⟨(t, i'), by simp [hm], rfl⟩))]
      exact hh hm

open Classical in
/-- **C49 (partial).**  If every group is handled by a thread of its own, the result has a one exactly
on the diagonal and between coupled groups.  Missing: threads that handle several groups, where
couplings are lost (`C49_one_thread_upper`, `C49_witness`). -/
theorem C49_group_matrix_partial {N ng : Nat} {A : Ell R} {a : Spec.Mat R} (hA : A.Represents N a)
    {hindex : Arr Nat} (hsz : ng ≤ hindex.size) (g : IsGroups N ng hindex.get) (big : R → Bool)
    {sc : Sched} (hsc : IsSched 0 ng sc) (hthr : (sc.map Prod.fst).Nodup)
    (jv : Nat → R) (ji jh : Nat → Nat) :
    ∃ B, groupMatrix A hindex ng big sc jv ji jh = .ok B ∧ B.M = ng ∧
      B.Represents ng (fun i c => if c = i ∨ Coupled A a N ng hindex.get big i c then 1 else 0) := by
  obtain ⟨B, e, hM, hrep, hst⟩ := C49_group_matrix_exact hA hsz g big hsc jv ji jh
  refine ⟨B, e, hM, hrep.congr ?_⟩
  intro i c hi hc
  obtain ⟨⟨t, i'⟩, hti, rfl⟩ := List.mem_map.1 ((hsc.mem i).2 ⟨Nat.zero_le _, hi⟩)
  obtain ⟨before, after, hs⟩ := List.append_of_mem hti
  have key := hst before t i' after hs c
  have hno : ∀ x, (t, x) ∉ before := by
    intro x hx
    rw [hs, List.map_append, List.nodup_append] at hthr
    exact hthr.2.2 t (List.mem_map.2 ⟨(t, x), hx, rfl⟩) t (by simp) rfl
  have : B.Stored i' c ↔ c = i' ∨ Coupled A a N ng hindex.get big i' c := by
    rw [key]
    exact or_congr_right (and_iff_left fun x hx => absurd hx (hno x))
  simp only [this]

/-- **C49 fails** with one thread, for every matrix and grouping: the result is upper triangular, the
couplings to earlier groups are lost. -/
theorem C49_one_thread_upper {N ng : Nat} {A : Ell R} {a : Spec.Mat R} (hA : A.Represents N a)
    {hindex : Arr Nat} (hsz : ng ≤ hindex.size) (g : IsGroups N ng hindex.get) (big : R → Bool)
    (jv : Nat → R) (ji jh : Nat → Nat) :
    ∃ B, groupMatrix A hindex ng big (seqSched 0 ng) jv ji jh = .ok B ∧
      ∀ i c, i < ng → c < i → B.getElement i c = .ok 0 := by
  obtain ⟨B, e, hM, hrep, hst⟩ := C49_group_matrix_exact hA hsz g big (isSched_seq 0 ng) jv ji jh
  refine ⟨B, e, fun i c hi hc => ?_⟩
  rw [hrep.get i c hi (by omega)]
  have hsplit : ∀ n, n < ng → ∃ after, seqSched 0 ng = seqSched 0 n ++ (0, n) :: after := by
    intro n hn
    unfold seqSched
    obtain ⟨d, hd⟩ : ∃ d, ng = n + 1 + d := ⟨ng - (n + 1), by omega⟩
    refine ⟨((List.range d).map fun k => (0, n + 1 + k)), ?_⟩
    subst hd
    simp only [Nat.sub_zero, Nat.zero_add]
    rw [List.range_add, List.map_append, List.range_succ, List.map_append]
    simp [Function.comp_def]
  have hmem : ∀ n m, m < n → (0, m) ∈ seqSched 0 n := by
    intro n m hm
    unfold seqSched
    exact List.mem_map.2 ⟨m, by simpa using hm, by simp⟩
  obtain ⟨after, hs⟩ := hsplit i hi
  obtain ⟨after', hs'⟩ := hsplit c (by omega)
  have hcc : B.Stored c c := (hst _ _ _ _ hs' c).2 (Or.inl rfl)
  rw [if_neg]
  intro hic
  rcases (hst _ _ _ _ hs c).1 hic with h | h
  · omega
  · exact h.2 c (hmem i c hc) hcc

/-- Groups `{0,1}`, `{2}`, `{3,4}` of the chain. -/
def exGroups : Arr Nat := ⟨3, fun i => [1, 3, 4].getD i 0⟩

theorem exGroups_ok : IsGroups 5 3 exGroups.get :=
  ⟨by decide, rfl, by intro i hi; have : i < 2 := by omega
                      interval_cases i <;> decide, by decide⟩

example : ∃ B, groupMatrix exChain exGroups 3 (fun x => decide (x ≠ 0)) [(1, 1), (0, 2), (2, 0)]
    (fun _ => 9) (fun _ => 9) (fun _ => 9) = .ok B ∧ B.getElement 1 0 = .ok 1 := by
  obtain ⟨B, e, _, h⟩ := C49_group_matrix_partial (sc := [(1, 1), (0, 2), (2, 0)]) exChain_rep
    (by decide) exGroups_ok (fun x => decide (x ≠ 0))
    (show List.Perm [1, 2, 0] [0, 1, 2] by decide) (by decide) (fun _ => 9) (fun _ => 9) (fun _ => 9)
  refine ⟨B, e, ?_⟩
  refine (h.get 1 0 (by decide) (by decide)).trans (congrArg Res.ok (if_pos ?_))
  exact Or.inr ⟨by decide, 2, 1, ⟨by decide, by decide, by decide⟩, ⟨by decide, by decide, by decide⟩,
    by decide, Or.inl (by decide)⟩

/-- **C49 fails**, concretely: one thread; group 1 is coupled to group 0 but the element is zero. -/
theorem C49_witness :
    (do let B ← groupMatrix exChain exGroups 3 (fun x => decide (x ≠ 0)) (seqSched 0 3)
          (fun _ => 9) (fun _ => 9) (fun _ => 9)
        let x ← B.getElement 1 0
        let y ← B.getElement 0 1
        pure (x, y)) = .ok (0, 1) := by decide

end Bml.Props
