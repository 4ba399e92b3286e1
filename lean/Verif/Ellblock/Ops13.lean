import Verif.Ellblock.Ops12
import Verif.Ellblock.Hist

/-!
# Block-ELLPACK: when a sum has room
-/

set_option linter.unusedSectionVars false

namespace Bml

namespace EllB

variable {R : Type} {E : Prop}

/-- Every allocation of a block row is large enough for every block of that row. -/
def Ample (A : EllB R) : Prop :=
  ∀ ib jp jb x b, ib < A.NB → jp < A.MB → jb < A.NB → A.ptr.get (ib * A.MB + jp) = some x →
    A.heap x = some b → A.bsize.get ib * A.bsize.get jb ≤ b.size

theorem foldl_join_nodup (l : List Nat) : ∀ J : List Nat, J.Nodup → (l.foldl join J).Nodup := by
  induction l with
  | nil => exact fun _ h => h
  | cons c l ih => exact fun J h => ih _ (join_nodup h)

theorem mem_foldl_join (l : List Nat) : ∀ {J : List Nat} {c : Nat},
    c ∈ l.foldl join J ↔ c ∈ J ∨ c ∈ l := by
  induction l with
  | nil => simp
  | cons d l ih =>
    intro J c
    rw [List.foldl_cons, ih, mem_join, List.mem_cons, or_assoc]

/-- The list that is joined to comes first. -/
theorem foldl_join_prefix (l : List Nat) : ∀ J : List Nat, ∃ J', l.foldl join J = J ++ J' := by
  induction l with
  | nil => exact fun J => ⟨[], by simp⟩
  | cons c l ih =>
    intro J
    rw [List.foldl_cons]
    obtain ⟨J', e⟩ := ih (join J c)
    unfold join at e ⊢
    by_cases hc : c ∈ J
    · rw [if_pos hc] at e ⊢; exact ⟨J', e⟩
    · rw [if_neg hc] at e ⊢
      exact ⟨c :: J', by rw [e]; simp⟩

theorem foldl_join_of_nodup (l : List Nat) : ∀ J : List Nat, (J ++ l).Nodup →
    l.foldl join J = J ++ l := by
  induction l with
  | nil => simp
  | cons c l ih =>
    intro J h
    have hc : c ∉ J := by
      intro hc
      rw [List.nodup_append] at h
      exact h.2.2 c hc c (by simp) rfl
    rw [List.foldl_cons]
    have : join J c = J ++ [c] := if_neg hc
    rw [this, ih _ (by simpa using h)]
    simp

section
variable [CommRing R] {A B : EllB R} {L L' : Nat → BRow R} {N : Nat} {a b : Spec.Mat R}

theorem touched_nodup (nz : R → Bool) (α β : R) (ib : Nat) : (touched nz L L' α β ib).Nodup :=
  foldl_join_nodup _ _ (foldl_join_nodup _ _ List.nodup_nil)

theorem touched_lt (h : A.Rows N L a) (hB : B.Rows N L' b) (hNB : B.NB = A.NB) {nz : R → Bool}
    {α β : R} {ib c : Nat} (hib : ib < A.NB) (hc : c ∈ touched nz L L' α β ib) : c < A.NB := by
  unfold touched at hc
  rw [mem_foldl_join, mem_foldl_join] at hc
  rcases hc with (hc | hc) | hc
  · cases hc
  · split at hc
    · obtain ⟨p, hp, rfl⟩ := List.mem_map.1 hc
      exact (h.good ib hib).lt p hp
    · cases hc
  · split at hc
    · obtain ⟨p, hp, rfl⟩ := List.mem_map.1 hc
      rw [← hNB]
      exact (hB.good ib (by rw [hNB]; exact hib)).lt p hp
    · cases hc

theorem sumVal_eq (h : A.Rows N L a) (hB : B.Rows N L' b) (hNB : B.NB = A.NB)
    (hbs : B.bsize = A.bsize) (α β : R) {ib jb ii jj : Nat} (hib : ib < A.NB) (hjb : jb < A.NB)
    (h1 : ii < A.bsize.get ib) (h2 : jj < A.bsize.get jb) :
    sumVal L L' α β ib jb (ii * A.bsize.get jb + jj) =
        α * a (off A.bsize.get ib + ii) (off A.bsize.get jb + jj) +
        β * b (off A.bsize.get ib + ii) (off A.bsize.get jb + jj) := by
  unfold sumVal
  rw [h.den ib jb ii jj hib hjb h1 h2]
  have := hB.den ib jb ii jj (by rw [hNB]; exact hib) (by rw [hNB]; exact hjb)
    (by rw [hbs]; exact h1) (by rw [hbs]; exact h2)
  rw [hbs] at this
  rw [this]

/-- The stored blocks are those with an element above the threshold. -/
theorem mem_addCols (h : A.Rows N L a) (hB : B.Rows N L' b) (hNB : B.NB = A.NB)
    (hbs : B.bsize = A.bsize) {nz big : R → Bool} {α β : R} {ib c : Nat} (hib : ib < A.NB)
    (hc : c ∈ addCols nz big A.bsize.get L L' α β ib) :
    c < A.NB ∧ ∃ ii jj, ii < A.bsize.get ib ∧ jj < A.bsize.get c ∧
      big (α * a (off A.bsize.get ib + ii) (off A.bsize.get c + jj) +
        β * b (off A.bsize.get ib + ii) (off A.bsize.get c + jj)) = true := by
  obtain ⟨h1, h2⟩ := List.mem_filter.1 hc
  have hlt := touched_lt h hB hNB hib h1
  simp only [Bool.false_and, Bool.false_or, decide_eq_true_eq] at h2
  obtain ⟨ii, jj, h3, h4, h5⟩ := (exists_flat _).1 h2
  exact ⟨hlt, ii, jj, h3, h4, by rw [← sumVal_eq h hB hNB hbs α β hib hlt h3 h4]; exact h5⟩

theorem addCols_length (h : A.Rows N L a) (hB : B.Rows N L' b) (hNB : B.NB = A.NB)
    (hbs : B.bsize = A.bsize) {nz big : R → Bool} {α β : R}
    (hf : BlocksFit big A.bsize.get A.NB A.MB (fun i j => α * a i j + β * b i j)) {ib : Nat}
    (hib : ib < A.NB) : (addCols nz big A.bsize.get L L' α β ib).length ≤ A.MB := by
  obtain ⟨S, hS, hm⟩ := hf ib hib
  have hnd : (addCols nz big A.bsize.get L L' α β ib).Nodup := (touched_nodup nz α β ib).filter _
  rw [← List.toFinset_card_of_nodup hnd]
  refine le_trans (Finset.card_le_card ?_) hS
  intro c hc
  obtain ⟨h1, ii, jj, h2, h3, h4⟩ := mem_addCols h hB hNB hbs hib (List.mem_toFinset.1 hc)
  exact hm c ii jj h1 h2 h3 h4

/-- If no block of `A` is dropped, the blocks of `A` keep their places. -/
theorem addCols_prefix (h : A.Rows N L a) {nz big : R → Bool} {α β : R} (hα : nz α = true)
    {ib : Nat} (hib : ib < A.NB) (hk : ∀ c ∈ (L ib).map Prod.fst,
      ∃ k, k < A.bsize.get ib * A.bsize.get c ∧ big (sumVal L L' α β ib c k) = true) :
    ∃ K, addCols nz big A.bsize.get L L' α β ib = (L ib).map Prod.fst ++ K := by
  unfold addCols kept touched
  rw [if_pos hα, foldl_join_of_nodup ((L ib).map Prod.fst) [] (by simpa using (h.good ib hib).nodup),
    List.nil_append]
  obtain ⟨J', e⟩ := foldl_join_prefix (if nz β = true then (L' ib).map Prod.fst else [])
    ((L ib).map Prod.fst)
  rw [e, List.filter_append]
  refine ⟨_, congrArg (· ++ _) (List.filter_eq_self.2 ?_)⟩
  intro c hc
  simpa using hk c hc

/-- If no block of `A` is dropped, a clean matrix stays clean. -/
theorem Rows.add_clean (h : A.Rows N L a) {T T' : Nat → Option (Arr R)} {LB : Nat → BRow R}
    {A' : EllB R} {f : Spec.Mat R} {nz big : R → Bool} {α β : R} (hS : A.Slots T) (hs : Same A A')
    (g1 : A'.Rows N LB f) (g2 : A'.Slots T')
    (g3 : ∀ ib, ib < A.NB → AddDone nz big A L L' T α β ib (LB ib) T') (hc : A.Clean)
    (hpre : ∀ ib, ib < A.NB → ∃ K, addCols nz big A.bsize.get L L' α β ib =
        (L ib).map Prod.fst ++ K) : A'.Clean := by
  intro ib jp hib hn hjp
  rw [hs.NB] at hib
  rw [hs.MB] at hjp ⊢
  have dn := g3 ib hib
  have hlK : (LB ib).length = (EllB.addCols nz big A.bsize.get L L' α β ib).length := by
    rw [← dn.ok.1, List.length_map]
  rw [g1.is.nz ib (by rw [hs.NB]; exact hib), hlK] at hn
  obtain ⟨K, eK⟩ := hpre ib hib
  have hk : ib * A.MB + jp < A.ptr.size := by
    rw [h.is.ptr_size]; exact addr_lt hib hjp
  have hk' : ib * A.MB + jp < A'.ptr.size := by
    rw [g1.is.ptr_size, hs.NB, hs.MB]; exact addr_lt hib hjp
  refine g2.null _ hk' ?_
  rw [dn.tr jp hjp hn]
  rw [eK, List.length_append, List.length_map] at hn
  have hp := hc ib jp hib (by rw [h.is.nz ib hib]; omega) hjp
  cases hT : T (ib * A.MB + jp) with
  | none => rfl
  | some b =>
    obtain ⟨x, hx, -⟩ := hS.live _ b hk hT
    rw [hp] at hx
    cases hx

/-- Clean matrices are tidy; if all blocks have one size, they are ample. -/
theorem Rows.ample (h : A.Rows N L a) (hc : A.Clean) {s : Nat}
    (hu : ∀ ib, ib < A.NB → A.bsize.get ib = s) : A.Tidy ∧ A.Ample := by
  refine ⟨(h.is.slots hc).tidy, ?_⟩
  intro ib jp jb x b hib hjp hjb hp hb
  rw [hu ib hib, hu jb hjb]
  rcases Nat.lt_or_ge jp (L ib).length with hl | hl
  · obtain ⟨⟨c, d⟩, hx⟩ : ∃ x, (L ib)[jp]? = some x := ⟨_, List.getElem?_eq_getElem hl⟩
    obtain ⟨-, y, h1, h2⟩ := h.is.slot ib jp c d hib hx
    rw [hp] at h1
    cases h1
    rw [hb] at h2
    cases h2
    have h3 := (h.good ib hib).size (c, b) (List.mem_of_getElem? hx)
    have h4 := (h.good ib hib).lt (c, b) (List.mem_of_getElem? hx)
    rw [hu ib hib, hu c h4] at h3
    exact h3
  · rw [hc ib jp hib (by rw [h.is.nz ib hib]; exact hl) hjp] at hp
    cases hp

end

end EllB

end Bml
