import Verif.Props.Ellblock2
import Verif.Ellblock.Ops13

/-!
# Property theorems: sums of block-ELLPACK matrices (C62)

`EllB.Tidy A`: every pointer cell of `A` is NULL or points to an allocation of its own.
`EllB.Ample A`: the allocations of a block row are large enough for any block of that row.
`EllB.BlocksFit big bs NB MB a`: the blocks of `a` with an element above the threshold fit into the
block rows.  `EllB.keepBlk bs big a`: `a`, with the blocks without an element above the threshold
replaced by zero.
-/

namespace Bml.Props

open Bml

variable {R : Type} [CommRing R]

/-! ## C62 -/

/-- A threshold by blocks changes no element above the threshold, and the elements it changes
become zero. -/
theorem C62_keepBlk (bs : Nat → Nat) (big : R → Bool) (a : Spec.Mat R) (i j : Nat) {ib jb : Nat}
    (hi : EllB.off bs ib ≤ i ∧ i < EllB.off bs (ib + 1))
    (hj : EllB.off bs jb ≤ j ∧ j < EllB.off bs (jb + 1)) :
    EllB.keepBlk bs big a i j = a i j ∨ (EllB.keepBlk bs big a i j = 0 ∧ big (a i j) = false) := by
  classical
  unfold EllB.keepBlk
  split
  · exact Or.inl rfl
  · next h =>
    refine Or.inr ⟨rfl, ?_⟩
    cases hb : big (a i j) with
    | false => rfl
    | true =>
      exact absurd ⟨i, j, ⟨ib, hi.1, hi.2, hi.1, hi.2⟩, ⟨jb, hj.1, hj.2, hj.1, hj.2⟩, hb⟩ h

/-- No stored block of `A` is without an element above the threshold in `f`. -/
def NoneDropped (big : R → Bool) (A : EllB R) (f : Spec.Mat R) : Prop :=
  ∀ ib jb, ib < A.NB → A.Has ib jb → ∃ ii jj, ii < A.bsize.get ib ∧ jj < A.bsize.get jb ∧
    big (f (EllB.off A.bsize.get ib + ii) (EllB.off A.bsize.get jb + jj)) = true

/-- **C62**, `bml_add`, partial: `A := α A + β B`, thresholded by blocks, for any order of the parallel
loop and any content of freshly allocated blocks; if the blocks of the result fit into the block rows,
and the allocations are large enough for any block, or no stored block of `A` is dropped.  Missing:
with blocks of different sizes a sum that drops a block may write past the end of an allocation
(`C62_add_overflow`); an overfull block row is not reported (`C62_add_full_row`). -/
theorem C62_add_partial {N : Nat} {A B : EllB R} {a b : Spec.Mat R} (hA : A.Represents N a)
    (hB : B.Represents N b) (hNB : B.NB = A.NB) (hMB : B.MB = A.MB) (hbs : B.bsize = A.bsize)
    (h0 : 0 < A.NB) {sc : Sched} (hsc : IsSched 0 A.NB sc) {nz : R → Bool}
    (hnz : ∀ c, nz c = false → c = 0) (big : R → Bool) (junk : Nat → R) (α β : R)
    (hfit : EllB.BlocksFit big A.bsize.get A.NB A.MB (fun i j => α * a i j + β * b i j))
    (hroom : (A.Tidy ∧ A.Ample) ∨
      (A.Clean ∧ nz α = true ∧ NoneDropped big A (fun i j => α * a i j + β * b i j))) :
    ∃ A', EllB.add sc nz big junk A B α β = .ok A' ∧ EllB.Same A A' ∧ A'.Tidy ∧
      A'.Represents N (EllB.keepBlk A.bsize.get big (fun i j => α * a i j + β * b i j)) ∧
      (A.Clean → nz α = true → NoneDropped big A (fun i j => α * a i j + β * b i j) → A'.Clean) ∧
      (∀ s, (∀ ib, ib < A.NB → A.bsize.get ib = s) → A.Tidy ∧ A.Ample → A'.Ample) := by
  classical
  obtain ⟨L, h⟩ := EllB.represents_iff.1 hA
  obtain ⟨L', h'⟩ := EllB.represents_iff.1 hB
  have hlen : ∀ ib, ib < A.NB → _ := fun ib hib =>
    EllB.addCols_length (nz := nz) h h' hNB hbs hfit hib
  have hpre : nz α = true → NoneDropped big A (fun i j => α * a i j + β * b i j) →
      ∀ ib, ib < A.NB → ∃ K, EllB.addCols nz big A.bsize.get L L' α β ib =
        (L ib).map Prod.fst ++ K := by
    intro hα hk ib hib
    refine EllB.addCols_prefix h hα hib (fun c hcm => ?_)
    obtain ⟨p, hp, rfl⟩ := List.mem_map.1 hcm
    have hlt := (h.good ib hib).lt p hp
    obtain ⟨ii, jj, h1, h2, h3⟩ := hk ib p.1 hib ((h.has_iff hib).2 hcm)
    refine (EllB.exists_flat _).2 ⟨ii, jj, h1, h2, ?_⟩
    rw [EllB.sumVal_eq h h' hNB hbs α β hib hlt h1 h2]
    exact h3
  by_cases hTA : A.Tidy ∧ A.Ample
  · obtain ⟨hT, hAm⟩ := hTA
    have hS := hT.slots
    have hcell : ∀ ib jp c d, ib < A.NB → jp < A.MB → c < A.NB →
        (A.ptr.get (ib * A.MB + jp)).bind A.heap = some d →
        A.bsize.get ib * A.bsize.get c ≤ d.size := by
      intro ib jp c d hib hjp hc hd
      obtain ⟨x, h1, h2⟩ := Option.bind_eq_some_iff.1 hd
      exact hAm ib jp c x d hib hjp hc h1 h2
    obtain ⟨A', e, hs, LB, T', g1, g2, g3⟩ := Res.wp_exists (h.wp_add (E := False) h' hS hNB hMB hbs h0
      hsc hnz big junk α β hlen (by
        intro ib jp c d hib h1 h2
        have h3 := (EllB.mem_addCols h h' hNB hbs hib (List.mem_of_getElem? h1)).1
        have := (List.getElem?_eq_some_iff.1 h1).1
        exact hcell ib jp c d hib (lt_of_lt_of_le this (hlen ib hib)) h3 h2))
    refine ⟨A', e, hs, g2.tidy, EllB.represents_iff.2 ⟨LB, g1⟩,
      fun hc hα hk => h.add_clean hS hs g1 g2 g3 hc (hpre hα hk), ?_⟩
    intro s hu _ ib jp jb x d hib hjp hjb hp hd
    rw [hs.NB] at hib hjb
    rw [hs.MB] at hjp hp
    rw [hs.bsize, hu ib hib, hu jb hjb]
    have hk : ib * A.MB + jp < A'.ptr.size := by
      rw [g1.is.ptr_size, hs.NB, hs.MB]; exact addr_lt hib hjp
    have hT' := g2.tgt hk hp hd
    have dn := g3 ib hib
    rcases Nat.lt_or_ge jp (EllB.addCols nz big A.bsize.get L L' α β ib).length with hj | hj
    · rcases dn.size jp d hj hT' with ⟨-, c, hc, hz⟩ | ⟨d', hd', hz⟩
      · rw [hz, hu ib hib, hu c (EllB.mem_addCols h h' hNB hbs hib hc).1]
      · rw [← hz]
        have := hcell ib jp jb d' hib hjp hjb hd'
        rwa [hu ib hib, hu jb hjb] at this
    · rw [dn.tr jp hjp hj] at hT'
      have := hcell ib jp jb d hib hjp hjb hT'
      rwa [hu ib hib, hu jb hjb] at this
  · rcases hroom with hr | ⟨hc, hα, hk⟩
    · exact absurd hr hTA
    have hS := h.is.slots hc
    obtain ⟨A', e, hs, LB, T', g1, g2, g3⟩ := Res.wp_exists (h.wp_add (E := False) h' hS hNB hMB hbs h0
      hsc hnz big junk α β hlen (by
        intro ib jp c d hib h1 h2
        obtain ⟨K, eK⟩ := hpre hα hk ib hib
        have hjl := (List.getElem?_eq_some_iff.1 h1).1
        have hjM := lt_of_lt_of_le hjl (hlen ib hib)
        rw [EllB.flat_addr hjM] at h2
        obtain ⟨⟨c', d'⟩, hx, rfl⟩ := Option.map_eq_some_iff.1 h2
        have hjL := (List.getElem?_eq_some_iff.1 hx).1
        rw [eK, List.getElem?_append_left (by rw [List.length_map]; exact hjL), List.getElem?_map, hx]
          at h1
        cases h1
        exact (h.good ib hib).size (c', d') (List.mem_of_getElem? hx)))
    exact ⟨A', e, hs, g2.tidy, EllB.represents_iff.2 ⟨LB, g1⟩,
      fun hc hα hk => h.add_clean hS hs g1 g2 g3 hc (hpre hα hk), fun s _ hx => absurd hx hTA⟩

/-- The nonzero test of the examples. -/
def nzI (c : Int) : Bool := decide (c ≠ 0)

theorem nzI_zero : ∀ c : Int, nzI c = false → c = 0 := by
  intro c h
  simpa [nzI] using h

/-- Blocks of sizes 4 and 1: `ebA + 2 C`, no block of `ebA` is dropped. -/
def ebCw : List (BWrite Int) := [⟨0, 4, 2⟩, ⟨4, 4, 1⟩, ⟨2, 2, 1⟩]

theorem ebC_spec : (mkB 5 ebCw).Represents 5 (mkBm ebCw) ∧ (mkB 5 ebCw).Clean ∧
    (mkB 5 ebCw).M = 5 := mkB_spec (N := 5) (by decide) ebCw (by decide) (by decide)

/-- A threshold that keeps every nonzero value changes nothing. -/
theorem keepBlk_exact {bs : Nat → Nat} {NB N : Nat} (hN : EllB.off bs NB = N) {big : R → Bool}
    (hb : ∀ x, big x = false → x = 0) (f : Spec.Mat R) : Spec.Eq N (EllB.keepBlk bs big f) f := by
  intro i j hi hj
  obtain ⟨ib, ii, h1, h2, rfl⟩ := EllB.off_surj bs NB i (by rw [hN]; exact hi)
  obtain ⟨jb, jj, h3, h4, rfl⟩ := EllB.off_surj bs NB j (by rw [hN]; exact hj)
  rcases C62_keepBlk bs big f (EllB.off bs ib + ii) (EllB.off bs jb + jj) (ib := ib) (jb := jb)
    ⟨Nat.le_add_right _ _, by rw [EllB.off_succ]; omega⟩
    ⟨Nat.le_add_right _ _, by rw [EllB.off_succ]; omega⟩ with h | ⟨h, h'⟩
  · exact h
  · rw [h, hb _ h']

/-- **C62**, `bml_add` with a threshold that keeps every nonzero value: the exact sum. -/
theorem C62_add_exact_partial {N : Nat} {A B : EllB R} {a b : Spec.Mat R} (hA : A.Represents N a)
    (hB : B.Represents N b) (hNB : B.NB = A.NB) (hMB : B.MB = A.MB) (hbs : B.bsize = A.bsize)
    (h0 : 0 < A.NB) {sc : Sched} (hsc : IsSched 0 A.NB sc) {nz : R → Bool}
    (hnz : ∀ c, nz c = false → c = 0) {big : R → Bool} (hbig : ∀ c, big c = false → c = 0)
    (junk : Nat → R) (α β : R)
    (hfit : EllB.BlocksFit big A.bsize.get A.NB A.MB (fun i j => α * a i j + β * b i j))
    (hroom : (A.Tidy ∧ A.Ample) ∨
      (A.Clean ∧ nz α = true ∧ NoneDropped big A (fun i j => α * a i j + β * b i j))) :
    ∃ A', EllB.add sc nz big junk A B α β = .ok A' ∧ EllB.Same A A' ∧ A'.Tidy ∧
      A'.Represents N (fun i j => α * a i j + β * b i j) ∧
      (A.Clean → nz α = true → NoneDropped big A (fun i j => α * a i j + β * b i j) → A'.Clean) := by
  obtain ⟨A', e, h1, h2, h3, h4, -⟩ :=
    C62_add_partial hA hB hNB hMB hbs h0 hsc hnz big junk α β hfit hroom
  obtain ⟨L, h⟩ := EllB.represents_iff.1 hA
  obtain ⟨L', h'⟩ := EllB.represents_iff.1 h3
  exact ⟨A', e, h1, h2, EllB.represents_iff.2 ⟨L', h'.congr (keepBlk_exact h.N_eq hbig _)⟩, h4⟩

theorem ebA_has {jb : Nat} {ib : Nat} (hib : ib < ebA.NB) (h : ebA.Has ib jb) : jb < 2 := by
  obtain ⟨jp, h1, rfl⟩ := h
  have : ∀ ib, ib < 2 → ∀ jp, jp < ebA.nnzb.get ib → ebA.indexb.get (ib * ebA.MB + jp) < 2 := by
    decide +kernel
  exact this ib hib jp h1

theorem ebA_none_dropped (f : Spec.Mat Int) (h00 : f 1 2 ≠ 0) (h01 : f 0 4 ≠ 0) (h10 : f 4 0 ≠ 0)
    (h11 : f 4 4 ≠ 0) : NoneDropped nzI ebA f := by
  intro ib jb hib hh
  have hjb := ebA_has hib hh
  have hib' : ib < 2 := hib
  have e0 : EllB.off ebA.bsize.get 0 = 0 := rfl
  have e1 : EllB.off ebA.bsize.get 1 = 4 := by decide +kernel
  interval_cases ib <;> interval_cases jb
  · exact ⟨1, 2, by decide, by decide, by
      rw [e0]; exact decide_eq_true h00⟩
  · exact ⟨0, 0, by decide, by decide, by
      rw [e0, e1]; exact decide_eq_true h01⟩
  · exact ⟨0, 0, by decide, by decide, by
      rw [e0, e1]; exact decide_eq_true h10⟩
  · exact ⟨0, 0, by decide, by decide, by
      rw [e1]; exact decide_eq_true h11⟩

example : ∃ A', EllB.add [(0, 1), (1, 0)] nzI nzI (fun _ => 77) ebA (mkB 5 ebCw) 1 2 = .ok A' ∧
    A'.Clean ∧ A'.getElement 0 4 = .ok 9 ∧ A'.getElement 2 2 = .ok 2 ∧
    A'.getElement 4 0 = .ok (-1) := by
  have hk := ebA_none_dropped (fun i j => 1 * ebAm i j + 2 * mkBm ebCw i j) (by decide) (by decide)
    (by decide) (by decide)
  obtain ⟨A', e, -, -, h, hc⟩ := C62_add_exact_partial ebA_spec.1 ebC_spec.1 (by decide +kernel)
    (by decide +kernel) (by rfl) (by decide) (sc := [(0, 1), (1, 0)])
    (show List.Perm [1, 0] [0, 1] by decide) nzI_zero nzI_zero (fun _ => 77) 1 2
    (EllB.blocksFit_of_le (by decide) _) (Or.inr ⟨ebA_spec.2.1, rfl, hk⟩)
  exact ⟨A', e, hc ebA_spec.2.1 rfl hk, (h.get 0 4 (by decide) (by decide)),
    h.get 2 2 (by decide) (by decide), h.get 4 0 (by decide) (by decide)⟩

/-- A matrix built by the constructors and by writes is clean; if all its blocks have one size, its
allocations are large enough for any sum. -/
theorem C62_uniform_room {N s : Nat} {A : EllB R} {a : Spec.Mat R} (hA : A.Represents N a)
    (hc : A.Clean) (hu : ∀ ib, ib < A.NB → A.bsize.get ib = s) : A.Tidy ∧ A.Ample := by
  obtain ⟨L, h⟩ := EllB.represents_iff.1 hA
  exact h.ample hc hu

/-- One call of `bml_add` on a matrix: the other matrix, its elements, the factors, the order of the
parallel loop, and the content of fresh memory. -/
structure BSum (R : Type) where
  B : EllB R
  b : Spec.Mat R
  α : R
  β : R
  sc : Sched
  junk : Nat → R

/-- A sequence of calls of `bml_add`. -/
def runSums (nz big : R → Bool) (l : List (BSum R)) (A : EllB R) : Res (EllB R) :=
  forList l A fun c A => EllB.add c.sc nz big c.junk A c.B c.α c.β

/-- What the sequence is meant to compute. -/
noncomputable def sums (bs : Nat → Nat) (big : R → Bool) (l : List (BSum R)) (a : Spec.Mat R) :
    Spec.Mat R :=
  l.foldl (fun a c => EllB.keepBlk bs big (fun i j => c.α * a i j + c.β * c.b i j)) a

/-- **C62**, any sequence of sums: if all blocks have one size and a block row has room for all blocks,
every sequence of calls of `bml_add` succeeds and computes the sums, whatever blocks are dropped in
between. -/
theorem C62_add_sequence {N s : Nat} {nz : R → Bool} (hnz : ∀ c, nz c = false → c = 0)
    (big : R → Bool) (l : List (BSum R)) : ∀ {A : EllB R} {a : Spec.Mat R}, A.Represents N a →
    A.Tidy → A.Ample → 0 < A.NB → A.NB ≤ A.MB → (∀ ib, ib < A.NB → A.bsize.get ib = s) →
    (∀ c ∈ l, c.B.Represents N c.b ∧ c.B.NB = A.NB ∧ c.B.MB = A.MB ∧ c.B.bsize = A.bsize ∧
      IsSched 0 A.NB c.sc) →
    ∃ A', runSums nz big l A = .ok A' ∧ EllB.Same A A' ∧ A'.Tidy ∧ A'.Ample ∧
      A'.Represents N (sums A.bsize.get big l a) := by
  induction l with
  | nil =>
    intro A a hA hT hAm _ _ _ _
    exact ⟨A, rfl, EllB.Same.refl _, hT, hAm, hA⟩
  | cons c l ih =>
    intro A a hA hT hAm h0 hMB hu hl
    obtain ⟨g1, g2, g3, g4, g5⟩ := hl c (by simp)
    obtain ⟨A1, e1, q1, q2, q3, -, q4⟩ := C62_add_partial hA g1 g2 g3 g4 h0 g5 hnz big c.junk c.α c.β
      (EllB.blocksFit_of_le hMB _) (Or.inl ⟨hT, hAm⟩)
    obtain ⟨A2, e2, r1, r2, r3, r4⟩ := ih q3 q2 (q4 s hu ⟨hT, hAm⟩) (by rw [q1.NB]; exact h0)
      (by rw [q1.NB, q1.MB]; exact hMB) (by rw [q1.NB, q1.bsize]; exact hu) (by
        intro d hd
        rw [q1.NB, q1.MB, q1.bsize]
        exact hl d (by simp [hd]))
    refine ⟨A2, ?_, q1.trans r1, r2, r3, ?_⟩
    · unfold runSums
      rw [forList_cons, e1, Res.bind_ok]
      exact e2
    · rw [q1.bsize] at r4
      exact r4

/-- 8 × 8 matrices with 4 × 4 blocks. -/
def ebU : EllB Int := mkB 8 [⟨0, 0, 5⟩, ⟨0, 7, 1⟩, ⟨7, 7, 3⟩]
def ebUm : Spec.Mat Int := mkBm [⟨0, 0, 5⟩, ⟨0, 7, 1⟩, ⟨7, 7, 3⟩]
def ebV : EllB Int := mkB 8 [⟨0, 7, 4⟩, ⟨7, 0, 1⟩]
def ebVm : Spec.Mat Int := mkBm [⟨0, 7, 4⟩, ⟨7, 0, 1⟩]

theorem ebU_spec : ebU.Represents 8 ebUm ∧ ebU.Clean ∧ ebU.M = 8 :=
  mkB_spec (N := 8) (by decide) _ (by decide) (by decide)

theorem ebV_spec : ebV.Represents 8 ebVm ∧ ebV.Clean ∧ ebV.M = 8 :=
  mkB_spec (N := 8) (by decide) _ (by decide) (by decide)

theorem ebU_bs : ∀ ib, ib < ebU.NB → ebU.bsize.get ib = 4 := by decide +kernel

/-- `A - A` drops all blocks of `A`, then `B` is added twice with a threshold. -/
example : ∃ A', runSums nzI nzI [⟨ebU, ebUm, 1, -1, [(0, 0), (1, 1)], fun _ => 7⟩,
      ⟨ebV, ebVm, 1, 2, [(0, 1), (1, 0)], fun _ => 8⟩] ebU = .ok A' ∧
    A'.getElement 0 7 = .ok 8 ∧ A'.getElement 0 0 = .ok 0 := by
  obtain ⟨hT, hAm⟩ := C62_uniform_room ebU_spec.1 ebU_spec.2.1 ebU_bs
  obtain ⟨A', e, -, -, -, h⟩ := C62_add_sequence (s := 4) nzI_zero nzI
    [⟨ebU, ebUm, 1, -1, [(0, 0), (1, 1)], fun _ => 7⟩,
      ⟨ebV, ebVm, 1, 2, [(0, 1), (1, 0)], fun _ => 8⟩] ebU_spec.1 hT hAm (by decide) (by decide)
    ebU_bs (by
      intro c hc
      rcases List.mem_cons.1 hc with rfl | hc
      · exact ⟨ebU_spec.1, rfl, rfl, rfl, show List.Perm [0, 1] [0, 1] by decide⟩
      · rw [List.mem_singleton.1 hc]
        exact ⟨ebV_spec.1, rfl, rfl, rfl, show List.Perm [1, 0] [0, 1] by decide⟩)
  obtain ⟨L, hL⟩ := EllB.represents_iff.1 h
  have hx := fun f => keepBlk_exact (R := Int) (bs := ebU.bsize.get) (NB := 2) (N := 8)
    (by decide +kernel) nzI_zero f
  refine ⟨A', e, (h.get 0 7 (by decide) (by decide)).trans ?_,
    (h.get 0 0 (by decide) (by decide)).trans ?_⟩
  · unfold sums
    simp only [List.foldl_cons, List.foldl_nil]
    rw [hx _ 0 7 (by decide) (by decide), hx _ 0 7 (by decide) (by decide)]
    decide
  · unfold sums
    simp only [List.foldl_cons, List.foldl_nil]
    rw [hx _ 0 0 (by decide) (by decide), hx _ 0 0 (by decide) (by decide)]
    decide

omit [CommRing R] in
/-- **C62**: matrices with different numbers of blocks, or different first blocks, are an error. -/
theorem C62_add_blocks [Zero R] [Add R] [Mul R] {A B : EllB R} (sc : Sched) (nz big : R → Bool)
    (junk : Nat → R) (α β : R) :
    (A.NB ≠ B.NB → EllB.add sc nz big junk A B α β = .error) ∧
    (A.NB = B.NB → 0 < A.bsize.size → 0 < B.bsize.size → A.bsize.get 0 ≠ B.bsize.get 0 →
      EllB.add sc nz big junk A B α β = .error) := by
  refine ⟨fun h => if_pos h, fun h h1 h2 h3 => ?_⟩
  unfold EllB.add
  rw [if_neg (not_not.2 h), Arr.read_ok h1, Res.bind_ok, Arr.read_ok h2, Res.bind_ok, if_pos h3]

example : EllB.add [] nzI nzI (fun _ => 0) ebA (newB Int 9 9) 1 1 = .error :=
  (C62_add_blocks [] nzI nzI (fun _ => 0) 1 1).1 (by decide)

/-- Blocks of 4 and 1: row 0 holds the 4 × 1 block `(0,1)`, then the 4 × 4 block `(0,0)`.  A sum that
drops the first writes the second over the allocation of the first. -/
theorem C62_add_overflow : ∃ A B, runB [(⟨0, 4, 1⟩ : BWrite Int), ⟨0, 0, 5⟩] (newB Int 5 5) = .ok A ∧
    runB [(⟨1, 1, 1⟩ : BWrite Int)] (newB Int 5 5) = .ok B ∧
    EllB.add [(0, 0), (0, 1)] nzI (fun x => decide (2 < x)) (fun _ => 0) A B 1 1 = .ub :=
  ⟨_, _, rfl, rfl, Res.eq_ub_of_isUb (by decide +kernel)⟩

/-- A 2 × 2 matrix after `bml_set_block_sizes` with two blocks of size 1 and one block per row. -/
def ebT : EllB Int :=
  match EllB.zeroMatrix (R := Int) ⟨some ⟨2, fun _ => 1⟩, 2, 1⟩ 2 2 with
  | .ok (_, A) => A
  | _ => EllB.empty 0 0 0 0 ⟨0, fun _ => 0⟩

def ebT1 : EllB Int := match runB [(⟨0, 0, 1⟩ : BWrite Int), ⟨1, 0, 7⟩] ebT with
  | .ok A => A
  | _ => ebT

def ebT2 : EllB Int := match runB [(⟨0, 1, 1⟩ : BWrite Int)] ebT with
  | .ok A => A
  | _ => ebT

/-- A sum with more blocks in a row than there is room for is not reported: here the second block of
block row 0 overwrites the block of block row 1, and the element `(1,0)` of the sum is 0 instead of
7. -/
theorem C62_add_full_row :
    (EllB.setBlockSizes EllB.Glob.init ⟨2, fun _ => 1⟩ 2 1 >>= fun g =>
      EllB.zeroMatrix (R := Int) g 2 2) = .ok (⟨some ⟨2, fun _ => 1⟩, 2, 1⟩, ebT) ∧
    runB [(⟨0, 0, 1⟩ : BWrite Int), ⟨1, 0, 7⟩] ebT = .ok ebT1 ∧
    runB [(⟨0, 1, 1⟩ : BWrite Int)] ebT = .ok ebT2 ∧
    ∃ A', EllB.add [(0, 0), (0, 1)] nzI nzI (fun _ => 0) ebT1 ebT2 1 1 = .ok A' ∧
      A'.getElement 1 0 = .ok 0 ∧ ebT1.getElement 1 0 = .ok 7 ∧ ebT2.getElement 1 0 = .ok 0 := by
  refine ⟨rfl, rfl, rfl, ?_⟩
  obtain ⟨A', e, h⟩ := Res.exists_okAnd
    (r := EllB.add [(0, 0), (0, 1)] nzI nzI (fun _ => 0) ebT1 ebT2 1 1)
    (p := fun A' => decide (A'.getElement 1 0 = .ok 0)) (by decide +kernel)
  exact ⟨A', e, of_decide_eq_true h, by decide +kernel, by decide +kernel⟩

/-- After a sum that drops a block, `bml_set_element` cannot store that block again: it ends in a
failed assertion. -/
theorem C62_set_after_add : ∃ A', EllB.add [(0, 0), (0, 1)] nzI (fun x => decide (2 < x))
      (fun _ => 0) ebU ebV 1 0 = .ok A' ∧ A'.getElement 0 7 = .ok 0 ∧
    A'.setElement 0 7 9 = .error := by
  obtain ⟨A', e, h⟩ := Res.exists_okAnd (r := EllB.add [(0, 0), (0, 1)] nzI
    (fun x => decide (2 < x)) (fun _ => 0) ebU ebV 1 0)
    (p := fun A' => decide (A'.getElement 0 7 = .ok 0) && (A'.setElement 0 7 9).isError)
    (by decide +kernel)
  rw [Bool.and_eq_true] at h
  exact ⟨A', e, of_decide_eq_true h.1, Res.eq_error_of_isError h.2⟩

/-- `A` was made under the block sizes that are in force. -/
def MadeUnder (g : EllB.Glob) (N : Nat) (A : EllB R) : Prop :=
  g.Set N A.bsize ∧ g.nb = A.NB ∧ g.mb = A.MB

/-- **C62**, `bml_add_identity`, partial: `A + β I`, thresholded by blocks, under the conditions of
`bml_add`, for a matrix made under the block sizes in force. -/
theorem C62_add_identity_partial {N : Nat} {A : EllB R} {a : Spec.Mat R} (hA : A.Represents N a)
    (hN : 0 < N) {g : EllB.Glob} (hg : MadeUnder g N A) {sc : Sched} (hsc : IsSched 0 A.NB sc)
    {nz : R → Bool} (hnz : ∀ c, nz c = false → c = 0) (big : R → Bool) (junk : Nat → R) (β : R)
    (hfit : EllB.BlocksFit big A.bsize.get A.NB A.MB (fun i j => a i j + β * Spec.one i j))
    (hroom : (A.Tidy ∧ A.Ample) ∨
      (A.Clean ∧ nz 1 = true ∧ NoneDropped big A (fun i j => a i j + β * Spec.one i j))) :
    ∃ A', EllB.addIdentity g sc nz big junk A β = .ok (g, A') ∧ EllB.Same A A' ∧ A'.Tidy ∧
      A'.Represents N (EllB.keepBlk A.bsize.get big (fun i j => a i j + β * Spec.one i j)) ∧
      (A.Clean → nz 1 = true → NoneDropped big A (fun i j => a i j + β * Spec.one i j) → A'.Clean) ∧
      (∀ s, (∀ ib, ib < A.NB → A.bsize.get ib = s) → A.Tidy ∧ A.Ample → A'.Ample) := by
  obtain ⟨hs, hnb, hmb⟩ := hg
  obtain ⟨L, h⟩ := EllB.represents_iff.1 hA
  obtain ⟨⟨g', I⟩, e, L', b, eg, -, h1, -, h2⟩ := Res.wp_exists (EllB.wp_identityMatrix (R := R)
    (E := False) (g := g) (N := N) (M := 1) (hs.for 1) hN)
  have : EllB.getBlockSizes g N 1 = .ok (g, A.bsize) := by
    unfold EllB.getBlockSizes
    rw [hs.bsize]
  rw [this] at eg
  cases eg
  have hbs : I.bsize = A.bsize := by
    rw [h2.bsize]
    show (⟨g'.nb, A.bsize.get⟩ : Arr Nat) = A.bsize
    rw [← hs.size]
  have e1 : (fun i j => (1 : R) * a i j + β * Spec.one i j) = fun i j => a i j + β * Spec.one i j := by
    funext i j
    rw [one_mul]
  obtain ⟨A', e2, q⟩ := C62_add_partial hA (EllB.represents_iff.2 ⟨L', h1⟩) (h2.NB.trans hnb)
    (h2.MB.trans hmb) hbs (by rw [← hnb]; exact hs.nb) hsc hnz big junk 1 β
    (by rw [e1]; exact hfit) (by rw [e1]; exact hroom)
  rw [e1] at q
  refine ⟨A', ?_, q⟩
  unfold EllB.addIdentity
  rw [h.dim, e, Res.bind_ok]
  simp only
  rw [e2]
  rfl

/-- Block sizes 4 and 1. -/
example : ∃ A', EllB.addIdentity ⟨some ebA.bsize, 2, 2⟩ [(0, 1), (1, 0)] nzI nzI (fun _ => 5) ebA 3 =
    .ok (⟨some ebA.bsize, 2, 2⟩, A') ∧ A'.Tidy := by
  have hk := ebA_none_dropped (fun i j => ebAm i j + 3 * Spec.one i j) (by decide) (by decide)
    (by decide) (by decide)
  obtain ⟨A', e, -, h, -⟩ := C62_add_identity_partial ebA_spec.1 (by decide)
    (g := ⟨some ebA.bsize, 2, 2⟩)
    ⟨⟨rfl, by decide +kernel, by decide, by decide, fun ib hib =>
      lt_trans (ebA_bs ib hib).2 (by decide), by decide +kernel⟩, rfl, rfl⟩
    (sc := [(0, 1), (1, 0)]) (show List.Perm [1, 0] [0, 1] by decide) nzI_zero nzI (fun _ => 5) 3
    (EllB.blocksFit_of_le (by decide) _) (Or.inr ⟨ebA_spec.2.1, rfl, hk⟩)
  exact ⟨A', e, h⟩

/-- **C62**, `bml_scale_add_identity` (with the element type `double`, see C09), partial:
`α A + β I`. -/
theorem C62_scale_add_identity_partial {N : Nat} {A : EllB R} {a : Spec.Mat R}
    (hA : A.Represents N a) (hN : 0 < N) {g : EllB.Glob} (hg : MadeUnder g N A) (hc : A.Clean)
    {sc : Sched} (hsc : IsSched 0 A.NB sc) {nz : R → Bool} (hnz : ∀ c, nz c = false → c = 0)
    (big : R → Bool) (junk : Nat → R) (α β : R)
    (hfit : EllB.BlocksFit big A.bsize.get A.NB A.MB (fun i j => α * a i j + β * Spec.one i j))
    (hroom : (∃ s, ∀ ib, ib < A.NB → A.bsize.get ib = s) ∨
      (nz 1 = true ∧ NoneDropped big A (fun i j => α * a i j + β * Spec.one i j))) :
    ∃ A', EllB.scaleAddIdentity g sc nz big junk A α β = .ok (g, A') ∧ EllB.Same A A' ∧ A'.Tidy ∧
      A'.Represents N
        (EllB.keepBlk A.bsize.get big (fun i j => α * a i j + β * Spec.one i j)) := by
  obtain ⟨L, h⟩ := EllB.represents_iff.1 hA
  obtain ⟨A1, e, L', h1, hs, hc1, hf, -⟩ := Res.wp_exists (h.wp_scaleInplace (E := False) α)
  obtain ⟨A', e', q1, q2, q3, -⟩ := C62_add_identity_partial (EllB.represents_iff.2 ⟨L', h1⟩) hN
    (g := g) (by
      obtain ⟨g1, g2, g3⟩ := hg
      exact ⟨by rw [hs.bsize]; exact g1, by rw [hs.NB]; exact g2, by rw [hs.MB]; exact g3⟩)
    (sc := sc) (by rw [hs.NB]; exact hsc) hnz big junk β
    (by rw [hs.NB, hs.MB, hs.bsize]; exact hfit) (by
      rcases hroom with ⟨s, hu⟩ | ⟨h2, h3⟩
      · left
        exact h1.ample (hc1 hc) (s := s) (by rw [hs.NB, hs.bsize]; exact hu)
      · right
        refine ⟨hc1 hc, h2, ?_⟩
        intro ib jb hib hh
        rw [hs.bsize]
        have hib' : ib < A.NB := by rw [← hs.NB]; exact hib
        refine h3 ib jb hib' ?_
        rw [h.has_iff hib', ← hf ib hib']
        exact (h1.has_iff hib).1 hh)
  refine ⟨A', ?_, hs.trans q1, q2, ?_⟩
  · unfold EllB.scaleAddIdentity
    rw [e, Res.bind_ok]
    exact e'
  · rw [hs.bsize] at q3
    exact q3

/-- The exact version, for a threshold that keeps every nonzero value. -/
theorem C62_scale_add_identity_exact_partial {N : Nat} {A : EllB R} {a : Spec.Mat R}
    (hA : A.Represents N a) (hN : 0 < N) {g : EllB.Glob} (hg : MadeUnder g N A) (hc : A.Clean)
    {sc : Sched} (hsc : IsSched 0 A.NB sc) {nz : R → Bool} (hnz : ∀ c, nz c = false → c = 0)
    {big : R → Bool} (hbig : ∀ c, big c = false → c = 0) (junk : Nat → R) (α β : R)
    (hfit : EllB.BlocksFit big A.bsize.get A.NB A.MB (fun i j => α * a i j + β * Spec.one i j))
    (hroom : (∃ s, ∀ ib, ib < A.NB → A.bsize.get ib = s) ∨
      (nz 1 = true ∧ NoneDropped big A (fun i j => α * a i j + β * Spec.one i j))) :
    ∃ A', EllB.scaleAddIdentity g sc nz big junk A α β = .ok (g, A') ∧ EllB.Same A A' ∧ A'.Tidy ∧
      A'.Represents N (fun i j => α * a i j + β * Spec.one i j) := by
  obtain ⟨A', e, h1, h2, h3⟩ :=
    C62_scale_add_identity_partial hA hN hg hc hsc hnz big junk α β hfit hroom
  obtain ⟨L, h⟩ := EllB.represents_iff.1 hA
  obtain ⟨L', h'⟩ := EllB.represents_iff.1 h3
  exact ⟨A', e, h1, h2, EllB.represents_iff.2 ⟨L', h'.congr (keepBlk_exact h.N_eq hbig _)⟩⟩

/-- `2 A - I` for 4 × 4 blocks. -/
example : ∃ A', EllB.scaleAddIdentity ⟨some ebU.bsize, 2, 2⟩ [(0, 1), (1, 0)] nzI nzI (fun _ => 5)
      ebU 2 (-1) = .ok (⟨some ebU.bsize, 2, 2⟩, A') ∧ A'.getElement 0 0 = .ok 9 ∧
    A'.getElement 3 3 = .ok (-1) ∧ A'.getElement 0 7 = .ok 2 := by
  obtain ⟨A', e, -, -, h⟩ := C62_scale_add_identity_exact_partial ebU_spec.1 (by decide)
    (g := ⟨some ebU.bsize, 2, 2⟩)
    ⟨⟨rfl, by decide +kernel, by decide, by decide, fun ib hib => by
      rw [ebU_bs ib hib]; decide, by decide +kernel⟩, rfl, rfl⟩ ebU_spec.2.1
    (sc := [(0, 1), (1, 0)]) (show List.Perm [1, 0] [0, 1] by decide) nzI_zero nzI_zero (fun _ => 5) 2
    (-1) (EllB.blocksFit_of_le (by decide) _) (Or.inl ⟨4, ebU_bs⟩)
  exact ⟨A', e, h.get 0 0 (by decide) (by decide), h.get 3 3 (by decide) (by decide),
    h.get 0 7 (by decide) (by decide)⟩

/-- **C62**, `bml_normalize`, partial: the elements `(max δ_ij - a_ij) / (max - min)`, under the
conditions above; and if the eigenvalues of `a` are in `[min,max]`, those of the result are in
`[0,1]`. -/
theorem C62_normalize_partial {K : Type} [Field K] [LinearOrder K] [IsStrictOrderedRing K] {N : Nat}
    {A : EllB K} {a : Spec.Mat K} (hA : A.Represents N a) (hN : 0 < N) {g : EllB.Glob}
    (hg : MadeUnder g N A) (hc : A.Clean) {sc : Sched} (hsc : IsSched 0 A.NB sc) (junk : Nat → K)
    {mn mx : K} (hlt : mn < mx)
    (hfit : EllB.BlocksFit (fun c => decide (c ≠ 0)) A.bsize.get A.NB A.MB (Spec.normalize mn mx a))
    (hroom : (∃ s, ∀ ib, ib < A.NB → A.bsize.get ib = s) ∨
      NoneDropped (fun c => decide (c ≠ 0)) A (Spec.normalize mn mx a)) :
    ∃ A', EllB.normalize g sc junk A mn mx = .ok (g, A') ∧ A'.M = A.M ∧
      A'.Represents N (Spec.normalize mn mx a) ∧
      ((∀ l, Spec.Eigen N a l → mn ≤ l ∧ l ≤ mx) →
        ∀ l, Spec.Eigen N (Spec.normalize mn mx a) l → 0 ≤ l ∧ l ≤ 1) := by
  have hz : ∀ c : K, decide (c ≠ 0) = false → c = 0 := fun c h => by simpa using h
  have ef : (fun i j => -1 / (mx - mn) * a i j + mx / (mx - mn) * Spec.one i j) =
      Spec.normalize mn mx a := by
    funext i j
    unfold Spec.normalize Spec.one
    by_cases hij : i = j
    · subst hij
      simp only [if_true, mul_one]
      rw [div_mul_eq_mul_div, ← add_div]
      congr 1
      ring
    · simp only [hij, if_false, mul_zero, add_zero]
      rw [div_mul_eq_mul_div, zero_sub]
      congr 1
      ring
  obtain ⟨A', e, h1, -, h2⟩ := C62_scale_add_identity_exact_partial hA hN hg hc hsc hz hz junk
    (-1 / (mx - mn)) (mx / (mx - mn)) (by rw [ef]; exact hfit) (by
      rcases hroom with h | h
      · exact Or.inl h
      · exact Or.inr ⟨by simp, by rw [ef]; exact h⟩)
  rw [ef] at h2
  exact ⟨A', e, h1.M, h2, fun hs l hl => C23_spectrum hlt hs hl⟩

/-- A rational matrix with one block; its eigenvalue 3 is mapped into `[0,1]`. -/
def ebQ4w : List (BWrite Rat) := [⟨0, 0, 2⟩, ⟨0, 1, 1⟩, ⟨1, 0, 1⟩, ⟨1, 1, 2⟩]

theorem ebQ4_spec : (mkB 4 ebQ4w).Represents 4 (mkBm ebQ4w) ∧ (mkB 4 ebQ4w).Clean ∧
    (mkB 4 ebQ4w).M = 4 := mkB_spec (N := 4) (by decide) _ (by decide) (by decide)

theorem ebQ4_bs : ∀ ib, ib < (mkB 4 ebQ4w).NB → (mkB 4 ebQ4w).bsize.get ib = 4 := by decide +kernel

example : ∃ A', EllB.normalize ⟨some (mkB 4 ebQ4w).bsize, 1, 1⟩ [(0, 0)] (fun _ => 5)
      (mkB 4 ebQ4w) (-1) 3 = .ok (⟨some (mkB 4 ebQ4w).bsize, 1, 1⟩, A') ∧
    A'.getElement 0 0 = .ok (1 / 4) ∧ A'.getElement 0 1 = .ok (-1 / 4) := by
  obtain ⟨A', e, -, h, -⟩ := C62_normalize_partial ebQ4_spec.1 (by decide)
    (g := ⟨some (mkB 4 ebQ4w).bsize, 1, 1⟩)
    ⟨⟨rfl, by decide +kernel, by decide, by decide, fun ib hib => by
      rw [ebQ4_bs ib hib]; decide, by decide +kernel⟩, rfl, rfl⟩
    ebQ4_spec.2.1 (sc := [(0, 0)]) (show List.Perm [0] [0] by decide) (fun _ => 5)
    (mn := -1) (mx := 3) (by norm_num) (EllB.blocksFit_of_le (by decide) _)
    (Or.inl ⟨4, ebQ4_bs⟩)
  exact ⟨A', e, (h.get 0 0 (by decide) (by decide)).trans (by decide +kernel),
    (h.get 0 1 (by decide) (by decide)).trans (by decide +kernel)⟩

end Bml.Props
