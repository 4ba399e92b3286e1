import Verif.Props.Ellblock3
import Verif.Ellblock.Ops17

/-!
# Property theorems: products of block-ELLPACK matrices (C63)

`Spec.mul N a b` is the matrix product.  `EllB.keepProd bs big p`: `p`, with the blocks off the
diagonal that have no element above the threshold replaced by zero.
-/

namespace Bml.Props

open Bml

variable {R : Type} [CommRing R]

/-! ## C63 -/

/-- The products of stored blocks of `A` and `B` fall into at most `MB` blocks in each block row. -/
def ProdFit (A B : EllB R) (MB : Nat) : Prop :=
  ∀ ib, ib < A.NB → ∃ S : Finset Nat, S.card ≤ MB ∧
    ∀ jb kb, jb < A.NB → kb < A.NB → A.Has ib jb → B.Has jb kb → kb ∈ S

/-- The kernels exist for blocks of up to six rows. -/
def SmallBlocks (A : EllB R) : Prop :=
  ∀ ib, ib < A.NB → 0 < A.bsize.get ib ∧ A.bsize.get ib ≤ 6

theorem mulCols_fit {A B : EllB R} {L L' : Nat → EllB.BRow R} {N : Nat} {a b : Spec.Mat R}
    (h : A.Rows N L a) (hB : B.Rows N L' b) (hNB : B.NB = A.NB) (MB : Nat) :
    ProdFit A B MB ↔ ∀ ib, ib < A.NB → (EllB.mulCols L' (L ib)).length ≤ MB := by
  have hlt : ∀ ib, ib < A.NB → ∀ p ∈ L ib, p.1 < A.NB := fun ib hib p hp => (h.good ib hib).lt p hp
  constructor
  · intro hf ib hib
    obtain ⟨S, h1, h2⟩ := hf ib hib
    rw [← List.toFinset_card_of_nodup (EllB.mulCols_nodup L' (L ib))]
    refine le_trans (Finset.card_le_card ?_) h1
    intro c hc
    obtain ⟨p, hp, hcp⟩ := EllB.mem_mulCols.1 (List.mem_toFinset.1 hc)
    have hpb := hlt ib hib p hp
    have hpb' : p.1 < B.NB := by rw [hNB]; exact hpb
    obtain ⟨q, hq, rfl⟩ := List.mem_map.1 hcp
    refine h2 p.1 q.1 hpb (by rw [← hNB]; exact (hB.good p.1 hpb').lt q hq)
      ((h.has_iff hib).2 (List.mem_map_of_mem hp)) ((hB.has_iff hpb').2 hcp)
  · intro hl ib hib
    refine ⟨(EllB.mulCols L' (L ib)).toFinset,
      by rw [List.toFinset_card_of_nodup (EllB.mulCols_nodup L' (L ib))]; exact hl ib hib, ?_⟩
    intro jb kb hjb hkb h1 h2
    rw [List.mem_toFinset, EllB.mem_mulCols]
    obtain ⟨p, hp, rfl⟩ := List.mem_map.1 ((h.has_iff hib).1 h1)
    exact ⟨p, hp, (hB.has_iff (by rw [hNB]; exact hjb)).1 h2⟩

/-- What the threshold does to a product: an element is the exact one, or it is zero, its exact value
is not above the threshold and it lies outside the diagonal blocks. -/
theorem C63_keepProd {bs : Nat → Nat} {NB N : Nat} (hN : EllB.off bs NB = N) (big : R → Bool)
    (p : Spec.Mat R) {i j : Nat} (hi : i < N) (hj : j < N) :
    EllB.keepProd bs big p i j = p i j ∨
      (EllB.keepProd bs big p i j = 0 ∧ big (p i j) = false ∧ ¬ EllB.Together bs i j) := by
  classical
  obtain ⟨ib, ii, h1, h2, rfl⟩ := EllB.off_surj bs NB i (by rw [hN]; exact hi)
  obtain ⟨jb, jj, h3, h4, rfl⟩ := EllB.off_surj bs NB j (by rw [hN]; exact hj)
  rw [EllB.keepProd_eq h2 h4, EllB.together_same h2 h4]
  split
  · exact Or.inl rfl
  · next h =>
    push Not at h
    refine Or.inr ⟨rfl, ?_, h.1⟩
    have := h.2 ii jj h2 h4
    simpa using this

theorem keepProd_exact {bs : Nat → Nat} {NB N : Nat} (hN : EllB.off bs NB = N) {big : R → Bool}
    (hb : ∀ x, big x = false → x = 0) (f : Spec.Mat R) : Spec.Eq N (EllB.keepProd bs big f) f := by
  intro i j hi hj
  rcases C63_keepProd hN big f hi hj with h | ⟨h, h', -⟩
  · exact h
  · rw [h, hb _ h']

/-- **C63**, `bml_multiply_AB`, partial: `C := A B`, thresholded by blocks, for any order of the
parallel loop and whatever `C` held before, if the blocks fit.  Missing: blocks of more than six rows
(`C63_large_block`). -/
theorem C63_multiply_AB_partial {N : Nat} {A B C : EllB R} {a b c : Spec.Mat R}
    (hA : A.Represents N a) (hB : B.Represents N b) (hC : C.Represents N c) (hNB : B.NB = A.NB)
    (hbs : B.bsize = A.bsize) (hCNB : C.NB = A.NB) (hCbs : C.bsize = A.bsize) (h6 : SmallBlocks A)
    {sc : Sched} (hsc : IsSched 0 A.NB sc) (big : R → Bool) (junk : Nat → R)
    (hfit : ProdFit A B C.MB) :
    ∃ C', EllB.multiplyAB sc big junk A B C = .ok C' ∧ EllB.Same C C' ∧
      C'.Represents N (EllB.keepProd A.bsize.get big (Spec.mul N a b)) := by
  obtain ⟨L, h⟩ := EllB.represents_iff.1 hA
  obtain ⟨L', h'⟩ := EllB.represents_iff.1 hB
  obtain ⟨L0, h0⟩ := EllB.represents_iff.1 hC
  have hl := (mulCols_fit h h' hNB C.MB).1 hfit
  obtain ⟨C', e, hs, -, LC, q, -⟩ := Res.wp_exists (h.wp_multiplyAB (E := False) h' h0.is hNB hbs
    h0.dim hCNB hCbs h6 hsc big junk (by
      rintro ⟨ib, h1, h2⟩
      have := hl ib h1
      omega))
  exact ⟨C', e, hs, EllB.represents_iff.2 ⟨LC, q⟩⟩

/-- **C63**, `bml_multiply_AB` with a threshold that keeps every nonzero value: the exact product. -/
theorem C63_multiply_AB_exact_partial {N : Nat} {A B C : EllB R} {a b c : Spec.Mat R}
    (hA : A.Represents N a) (hB : B.Represents N b) (hC : C.Represents N c) (hNB : B.NB = A.NB)
    (hbs : B.bsize = A.bsize) (hCNB : C.NB = A.NB) (hCbs : C.bsize = A.bsize) (h6 : SmallBlocks A)
    {sc : Sched} (hsc : IsSched 0 A.NB sc) {big : R → Bool} (hbig : ∀ x, big x = false → x = 0)
    (junk : Nat → R) (hfit : ProdFit A B C.MB) :
    ∃ C', EllB.multiplyAB sc big junk A B C = .ok C' ∧ EllB.Same C C' ∧
      C'.Represents N (Spec.mul N a b) := by
  obtain ⟨C', e, h1, h2⟩ := C63_multiply_AB_partial hA hB hC hNB hbs hCNB hCbs h6 hsc big junk hfit
  obtain ⟨L, h⟩ := EllB.represents_iff.1 hA
  obtain ⟨L', h'⟩ := EllB.represents_iff.1 h2
  exact ⟨C', e, h1, EllB.represents_iff.2 ⟨L', h'.congr (keepProd_exact h.N_eq hbig _)⟩⟩

/-- **C63**: a product that does not fit is reported as an error, in every order of the parallel
loop. -/
theorem C63_multiply_AB_overfull {N : Nat} {A B C : EllB R} {a b c : Spec.Mat R}
    (hA : A.Represents N a) (hB : B.Represents N b) (hC : C.Represents N c) (hNB : B.NB = A.NB)
    (hbs : B.bsize = A.bsize) (hCNB : C.NB = A.NB) (hCbs : C.bsize = A.bsize) (h6 : SmallBlocks A)
    {sc : Sched} (hsc : IsSched 0 A.NB sc) (big : R → Bool) (junk : Nat → R)
    (hfit : ¬ ProdFit A B C.MB) : EllB.multiplyAB sc big junk A B C = .error := by
  obtain ⟨L, h⟩ := EllB.represents_iff.1 hA
  obtain ⟨L', h'⟩ := EllB.represents_iff.1 hB
  obtain ⟨L0, h0⟩ := EllB.represents_iff.1 hC
  have hw := h.wp_multiplyAB (E := True) h' h0.is hNB hbs h0.dim hCNB hCbs h6 hsc big junk
    (fun _ => trivial)
  cases e : EllB.multiplyAB sc big junk A B C with
  | ok C' =>
    rw [e] at hw
    exact absurd ((mulCols_fit h h' hNB C.MB).2 hw.2.1) hfit
  | error => rfl
  | ub => rw [e] at hw; exact hw.elim

/-- Matrices with different numbers of blocks are an error. -/
theorem C63_multiply_AB_blocks {A B C : EllB R} (sc : Sched) (big : R → Bool) (junk : Nat → R)
    (h : A.NB ≠ B.NB ∨ A.NB ≠ C.NB) : EllB.multiplyAB sc big junk A B C = .error := if_pos h

omit [CommRing R] in
theorem prodFit_of_le {A B : EllB R} {MB : Nat} (h : A.NB ≤ MB) : ProdFit A B MB :=
  fun _ _ => ⟨Finset.range A.NB, by simpa using h, fun _ kb _ hkb _ _ => by simpa using hkb⟩

theorem ebU_small : SmallBlocks ebU := by
  intro ib hib
  rw [ebU_bs ib hib]
  decide

/-- `ebU ebV`, written over a matrix that is not empty. -/
example : ∃ C', EllB.multiplyAB [(0, 1), (1, 0)] nzI (fun _ => 9) ebU ebV ebV = .ok C' ∧
    C'.getElement 0 0 = .ok 1 ∧ C'.getElement 0 7 = .ok 20 ∧ C'.getElement 7 0 = .ok 3 := by
  obtain ⟨C', e, -, h⟩ := C63_multiply_AB_exact_partial ebU_spec.1 ebV_spec.1 ebV_spec.1 rfl rfl rfl rfl
    ebU_small (sc := [(0, 1), (1, 0)]) (show List.Perm [1, 0] [0, 1] by decide) nzI_zero (fun _ => 9)
    (prodFit_of_le (by decide))
  exact ⟨C', e, h.get 0 0 (by decide) (by decide), h.get 0 7 (by decide) (by decide),
    h.get 7 0 (by decide) (by decide)⟩

/-- Rows of one block cannot hold `ebU ebU`. -/
example : EllB.multiplyAB [(0, 1), (1, 0)] nzI (fun _ => 9) ebU ebU
    (EllB.empty 8 8 2 1 ebU.bsize) = .error := by
  obtain ⟨L, hL⟩ := EllB.represents_iff.1 ebU_spec.1
  refine C63_multiply_AB_overfull ebU_spec.1 ebU_spec.1
    (EllB.represents_iff.2 ⟨_, EllB.empty_rows (N := 8) hL.is.bs_size hL.N_eq⟩) rfl rfl rfl rfl
    ebU_small (sc := [(0, 1), (1, 0)]) (show List.Perm [1, 0] [0, 1] by decide) nzI (fun _ => 9) ?_
  intro hf
  obtain ⟨S, h1, h2⟩ := hf 0 (by decide)
  have b0 : ebU.Has 0 0 := ⟨0, by decide +kernel, by decide +kernel⟩
  have b1 : ebU.Has 0 1 := ⟨1, by decide +kernel, by decide +kernel⟩
  have m0 : 0 ∈ S := h2 0 0 (by decide) (by decide) b0 b0
  have m1 : 1 ∈ S := h2 0 1 (by decide) (by decide) b0 b1
  exact absurd (Finset.card_le_one.1 h1 0 m0 1 m1) (by decide)

/-- **C63**, `bml_multiply_x2`, partial: `X2 := X X`, thresholded by blocks, and the trace of `X`; if
all blocks have one size also the trace of the square before the threshold.  Missing: blocks of more
than six rows (`C63_large_block`), the second trace for blocks of different sizes
(`C63_x2_trace_wrong`). -/
theorem C63_multiply_x2_partial {N : Nat} {X X2 : EllB R} {a c : Spec.Mat R} (hA : X.Represents N a)
    (hC : X2.Represents N c) (hNB : X2.NB = X.NB) (hMB : X2.MB = X.MB) (hbs : X2.bsize = X.bsize)
    (h6 : SmallBlocks X) {sc : Sched} (hsc : IsSched 0 X.NB sc) (big : R → Bool) (junk : Nat → R)
    (hfit : ProdFit X X X.MB) :
    ∃ C' t t2, EllB.multiplyX2 sc big junk X X2 = .ok (C', t, t2) ∧ EllB.Same X2 C' ∧
      C'.Represents N (EllB.keepProd X.bsize.get big (Spec.mul N a a)) ∧ t = Spec.tr N a ∧
      ((∀ ib jb, ib < X.NB → jb < X.NB → X.bsize.get jb = X.bsize.get ib) →
        t2 = Spec.tr N (Spec.mul N a a)) := by
  obtain ⟨L, h⟩ := EllB.represents_iff.1 hA
  obtain ⟨L0, h0⟩ := EllB.represents_iff.1 hC
  have hl := (mulCols_fit h h rfl X.MB).1 hfit
  obtain ⟨⟨C', t, t2⟩, e, hs, -, q1, q2, LC, q, -⟩ := Res.wp_exists (h.wp_multiplyX2 (E := False) h0.is
    h0.dim hNB hMB hbs h6 hsc big junk (by
      rintro ⟨ib, h1, h2⟩
      have := hl ib h1
      omega))
  exact ⟨C', t, t2, e, hs, EllB.represents_iff.2 ⟨LC, q⟩, q1, q2⟩

/-- **C63**: a square that does not fit is reported as an error. -/
theorem C63_multiply_x2_overfull {N : Nat} {X X2 : EllB R} {a c : Spec.Mat R} (hA : X.Represents N a)
    (hC : X2.Represents N c) (hNB : X2.NB = X.NB) (hMB : X2.MB = X.MB) (hbs : X2.bsize = X.bsize)
    (h6 : SmallBlocks X) {sc : Sched} (hsc : IsSched 0 X.NB sc) (big : R → Bool) (junk : Nat → R)
    (hfit : ¬ ProdFit X X X.MB) : EllB.multiplyX2 sc big junk X X2 = .error := by
  obtain ⟨L, h⟩ := EllB.represents_iff.1 hA
  obtain ⟨L0, h0⟩ := EllB.represents_iff.1 hC
  have hw := h.wp_multiplyX2 (E := True) h0.is h0.dim hNB hMB hbs h6 hsc big junk (fun _ => trivial)
  cases e : EllB.multiplyX2 sc big junk X X2 with
  | ok r =>
    rw [e] at hw
    exact absurd ((mulCols_fit h h rfl X.MB).2 hw.2.1) hfit
  | error => rfl
  | ub => rw [e] at hw; exact hw.elim

example : ∃ C' t t2, EllB.multiplyX2 [(0, 1), (1, 0)] nzI (fun _ => 9) ebU ebV = .ok (C', t, t2) ∧
    C'.getElement 0 7 = .ok 8 ∧ t = 8 ∧ t2 = 34 := by
  obtain ⟨C', t, t2, e, -, h, h1, h2⟩ := C63_multiply_x2_partial ebU_spec.1 ebV_spec.1 rfl rfl rfl
    ebU_small (sc := [(0, 1), (1, 0)]) (show List.Perm [1, 0] [0, 1] by decide) nzI (fun _ => 9)
    (prodFit_of_le (by decide))
  obtain ⟨L, hL⟩ := EllB.represents_iff.1 ebU_spec.1
  refine ⟨C', t, t2, e, (h.get 0 7 (by decide) (by decide)).trans ?_, h1.trans (by decide),
    (h2 fun ib jb hib hjb => by rw [ebU_bs ib hib, ebU_bs jb hjb]).trans (by decide)⟩
  rw [keepProd_exact hL.N_eq nzI_zero _ 0 7 (by decide) (by decide)]
  decide

/-- Blocks of sizes 4 and 1, the blocks of row 0 in the order `(0,1)`, `(0,0)`. -/
def ebX : EllB Int := mkB 5 [⟨0, 4, 1⟩, ⟨4, 4, 1⟩, ⟨1, 1, 2⟩]
def ebXm : Spec.Mat Int := mkBm [⟨0, 4, 1⟩, ⟨4, 4, 1⟩, ⟨1, 1, 2⟩]

theorem ebX_spec : ebX.Represents 5 ebXm ∧ ebX.Clean ∧ ebX.M = 5 :=
  mkB_spec (N := 5) (by decide) _ (by decide) (by decide)

/-- **C63 fails** for the trace of the square with blocks of different sizes: here the trace of the
square is 5, the result of `bml_multiply_x2` is 1. -/
theorem C63_x2_trace_wrong : Spec.tr 5 (Spec.mul 5 ebXm ebXm) = 5 ∧
    ∃ r, EllB.multiplyX2 [(0, 0), (0, 1)] nzI (fun _ => 0) ebX (newB Int 5 5) = .ok r ∧
      r.2.2 = 1 := by
  refine ⟨by decide, ?_⟩
  obtain ⟨r, e, h⟩ := Res.exists_okAnd
    (r := EllB.multiplyX2 [(0, 0), (0, 1)] nzI (fun _ => 0) ebX (newB Int 5 5))
    (p := fun r => decide (r.2.2 = 1)) (by decide +kernel)
  exact ⟨r, e, of_decide_eq_true h⟩

/-- One block of size 7. -/
def eb7 : EllB Int :=
  match EllB.zeroMatrix (R := Int) ⟨some ⟨1, fun _ => 7⟩, 1, 1⟩ 7 7 with
  | .ok (_, A) => A
  | _ => EllB.empty 0 0 0 0 ⟨0, fun _ => 0⟩

/-- **C63 fails** for blocks of more than six rows, which `bml_set_block_sizes` accepts: the product
calls through a table with six entries. -/
theorem C63_large_block :
    (EllB.setBlockSizes EllB.Glob.init ⟨1, fun _ => 7⟩ 1 1 >>= fun g =>
      EllB.zeroMatrix (R := Int) g 7 7) = .ok (⟨some ⟨1, fun _ => 7⟩, 1, 1⟩, eb7) ∧
    ∃ A, runB [(⟨0, 0, 1⟩ : BWrite Int)] eb7 = .ok A ∧
      EllB.multiplyAB [(0, 0)] nzI (fun _ => 0) A A eb7 = .ub ∧
      EllB.multiplyX2 [(0, 0)] nzI (fun _ => 0) A eb7 = .ub :=
  ⟨rfl, _, rfl, Res.eq_ub_of_isUb (by decide +kernel), Res.eq_ub_of_isUb (by decide +kernel)⟩

/-- The temporary matrix of `bml_multiply`. -/
theorem multiply_tmp {N : Nat} {C : EllB R} {c : Spec.Mat R} (hC : C.Represents N c) (hN : 0 < C.NB)
    (hMB : 0 < C.MB) (hM : C.M ≤ N) (h6 : SmallBlocks C) {g : EllB.Glob} (hg : g.mb ≠ 0) :
    EllB.blockMatrix (R := R) g C.NB C.MB C.M C.bsize =
      .ok (g, EllB.empty N C.M C.NB C.MB C.bsize) ∧
    (EllB.empty N C.M C.NB C.MB C.bsize : EllB R).Rows N (fun _ => []) (fun _ _ => 0) := by
  obtain ⟨L, h⟩ := EllB.represents_iff.1 hC
  have e1 : (⟨C.NB, C.bsize.get⟩ : Arr Nat) = C.bsize := by rw [← h.is.bs_size]
  have := EllB.blockMatrix_eq (R := R) (g := g) (M := C.M) (bs := C.bsize) hN hMB
    (le_of_eq h.is.bs_size.symm)
    (fun ib hib => lt_of_le_of_lt (h6 ib hib).2 (by decide)) (by rw [h.N_eq]; exact hM) hg
  rw [h.N_eq, e1] at this
  exact ⟨this, EllB.empty_rows h.is.bs_size h.N_eq⟩

/-- **C63**, `bml_multiply` for two different factors, partial: `C := α A B + β C`; the product and the
sum are thresholded by blocks.  Missing: as for the product and the sum. -/
theorem C63_multiply_partial {N : Nat} {A B C : EllB R} {a b c : Spec.Mat R}
    (hA : A.Represents N a) (hB : B.Represents N b) (hC : C.Represents N c) (hNB : B.NB = A.NB)
    (hbs : B.bsize = A.bsize) (hCNB : C.NB = A.NB) (hCbs : C.bsize = A.bsize) (h6 : SmallBlocks A)
    (h0 : 0 < C.NB) (hMB0 : 0 < C.MB) (hM : C.M ≤ N) {g : EllB.Glob} (hg : g.mb ≠ 0)
    {sc sc' : Sched} (hsc : IsSched 0 A.NB sc) (hsc' : IsSched 0 A.NB sc') {nz : R → Bool}
    (hnz : ∀ x, nz x = false → x = 0) (big : R → Bool) (junk : Nat → R) (α β : R)
    (hprod : ProdFit A B C.MB)
    (hfit : EllB.BlocksFit big C.bsize.get C.NB C.MB (fun i j => β * c i j +
      α * EllB.keepProd A.bsize.get big (Spec.mul N a b) i j))
    (hroom : (C.Tidy ∧ C.Ample) ∨ (C.Clean ∧ nz β = true ∧ NoneDropped big C (fun i j => β * c i j +
      α * EllB.keepProd A.bsize.get big (Spec.mul N a b) i j))) :
    ∃ C', EllB.multiply g sc sc' nz big junk A B C α β = .ok (g, C') ∧ EllB.Same C C' ∧ C'.Tidy ∧
      C'.Represents N (EllB.keepBlk A.bsize.get big (fun i j => β * c i j +
        α * EllB.keepProd A.bsize.get big (Spec.mul N a b) i j)) ∧
      (∀ s, (∀ ib, ib < A.NB → A.bsize.get ib = s) → C.Tidy ∧ C.Ample → C'.Ample) := by
  have h6C : SmallBlocks C := by
    intro ib hib; rw [hCbs]; exact h6 ib (by rw [← hCNB]; exact hib)
  obtain ⟨e1, h1⟩ := multiply_tmp hC h0 hMB0 hM h6C hg
  obtain ⟨A2, e2, s2, h2⟩ := C63_multiply_AB_partial hA hB (EllB.represents_iff.2 ⟨_, h1⟩) hNB hbs hCNB
    hCbs h6 hsc big junk hprod
  obtain ⟨C', e3, q1, q2, q3, -, q4⟩ := C62_add_partial hC h2 s2.NB s2.MB s2.bsize h0
    (sc := sc') (by rw [hCNB]; exact hsc') hnz big junk β α hfit hroom
  refine ⟨C', ?_, q1, q2, ?_, fun s hu => q4 s (by rw [hCNB, hCbs]; exact hu)⟩
  · unfold EllB.multiply
    rw [e1, Res.bind_ok]
    simp only
    rw [e2, Res.bind_ok, e3]
    rfl
  · rw [hCbs] at q3; exact q3

/-- **C63**, `bml_multiply` with a threshold that keeps every nonzero value: `C := α A B + β C`
exactly, for blocks of one size and block rows with room for all blocks; `C` can be used again. -/
theorem C63_multiply_room_partial {N s : Nat} {A B C : EllB R} {a b c : Spec.Mat R}
    (hA : A.Represents N a) (hB : B.Represents N b) (hC : C.Represents N c) (hNB : B.NB = A.NB)
    (hbs : B.bsize = A.bsize) (hCNB : C.NB = A.NB) (hCbs : C.bsize = A.bsize) (h6 : SmallBlocks A)
    (hu : ∀ ib, ib < A.NB → A.bsize.get ib = s) (hroom : C.Tidy ∧ C.Ample)
    (h0 : 0 < C.NB) (hMB : C.NB ≤ C.MB) (hM : C.M ≤ N) {g : EllB.Glob} (hg : g.mb ≠ 0)
    {sc sc' : Sched} (hsc : IsSched 0 A.NB sc) (hsc' : IsSched 0 A.NB sc') {nz : R → Bool}
    (hnz : ∀ x, nz x = false → x = 0) {big : R → Bool} (hbig : ∀ x, big x = false → x = 0)
    (junk : Nat → R) (α β : R) :
    ∃ C', EllB.multiply g sc sc' nz big junk A B C α β = .ok (g, C') ∧ EllB.Same C C' ∧
      (C'.Tidy ∧ C'.Ample) ∧ C'.Represents N (fun i j => α * Spec.mul N a b i j + β * c i j) := by
  obtain ⟨C', e, h1, h2, h3, h4⟩ := C63_multiply_partial hA hB hC hNB hbs hCNB hCbs h6 h0 (by omega) hM hg
    hsc hsc' hnz big junk α β (prodFit_of_le (by omega)) (EllB.blocksFit_of_le hMB _) (Or.inl hroom)
  obtain ⟨L, h⟩ := EllB.represents_iff.1 hA
  obtain ⟨L', h'⟩ := EllB.represents_iff.1 h3
  refine ⟨C', e, h1, ⟨h2, h4 s hu hroom⟩, EllB.represents_iff.2 ⟨L', h'.congr ?_⟩⟩
  intro i j hi hj
  rw [keepBlk_exact h.N_eq hbig _ i j hi hj, keepProd_exact h.N_eq hbig _ i j hi hj]
  ring

/-- **C63**, the same for a matrix `C` whose unused pointers are NULL. -/
theorem C63_multiply_exact_partial {N s : Nat} {A B C : EllB R} {a b c : Spec.Mat R}
    (hA : A.Represents N a) (hB : B.Represents N b) (hC : C.Represents N c) (hNB : B.NB = A.NB)
    (hbs : B.bsize = A.bsize) (hCNB : C.NB = A.NB) (hCbs : C.bsize = A.bsize) (h6 : SmallBlocks A)
    (hu : ∀ ib, ib < A.NB → A.bsize.get ib = s) (hcl : C.Clean)
    (h0 : 0 < C.NB) (hMB : C.NB ≤ C.MB) (hM : C.M ≤ N) {g : EllB.Glob} (hg : g.mb ≠ 0)
    {sc sc' : Sched} (hsc : IsSched 0 A.NB sc) (hsc' : IsSched 0 A.NB sc') {nz : R → Bool}
    (hnz : ∀ x, nz x = false → x = 0) {big : R → Bool} (hbig : ∀ x, big x = false → x = 0)
    (junk : Nat → R) (α β : R) :
    ∃ C', EllB.multiply g sc sc' nz big junk A B C α β = .ok (g, C') ∧ EllB.Same C C' ∧ C'.Tidy ∧
      C'.Represents N (fun i j => α * Spec.mul N a b i j + β * c i j) := by
  obtain ⟨C', e, h1, h2, h3⟩ := C63_multiply_room_partial hA hB hC hNB hbs hCNB hCbs h6 hu
    (C62_uniform_room (s := s) hC hcl (by rw [hCNB, hCbs]; exact hu)) h0 hMB hM hg hsc hsc' hnz hbig
    junk α β
  exact ⟨C', e, h1, h2.1, h3⟩

example : ∃ C', EllB.multiply ⟨some ebU.bsize, 2, 2⟩ [(0, 1), (1, 0)] [(0, 0), (1, 1)] nzI nzI
      (fun _ => 9) ebU ebV ebV 2 (-1) = .ok (⟨some ebU.bsize, 2, 2⟩, C') ∧
    C'.getElement 0 0 = .ok 2 ∧ C'.getElement 0 7 = .ok 36 ∧ C'.getElement 7 0 = .ok 5 := by
  obtain ⟨C', e, -, -, h⟩ := C63_multiply_exact_partial ebU_spec.1 ebV_spec.1 ebV_spec.1 rfl rfl rfl rfl
    ebU_small ebU_bs ebV_spec.2.1 (by decide) (by decide) (by decide) (g := ⟨some ebU.bsize, 2, 2⟩)
    (by decide) (sc := [(0, 1), (1, 0)]) (show List.Perm [1, 0] [0, 1] by decide)
    (sc' := [(0, 0), (1, 1)]) (show List.Perm [0, 1] [0, 1] by decide) nzI_zero nzI_zero (fun _ => 9)
    2 (-1)
  exact ⟨C', e, h.get 0 0 (by decide) (by decide), h.get 0 7 (by decide) (by decide),
    h.get 7 0 (by decide) (by decide)⟩

/-- **C63**, `bml_multiply` of a matrix with itself, partial: `C := A A` if `α = 1` and `β = 0`. -/
theorem C63_multiply_same_partial {N : Nat} {A C : EllB R} {a c : Spec.Mat R}
    (hA : A.Represents N a) (hC : C.Represents N c) (hCNB : C.NB = A.NB) (hCMB : C.MB = A.MB)
    (hCbs : C.bsize = A.bsize) (h6 : SmallBlocks A) (g : EllB.Glob)
    {sc : Sched} (sc' : Sched) (hsc : IsSched 0 A.NB sc) (nz : R → Bool) (big : R → Bool)
    {isOne isZero : R → Bool} (junk : Nat → R) {α β : R} (hα : isOne α = true) (hβ : isZero β = true)
    (hprod : ProdFit A A A.MB) :
    ∃ C', EllB.multiplySame g sc sc' nz big isOne isZero junk A C α β = .ok (g, C') ∧
      EllB.Same C C' ∧ C'.Represents N (EllB.keepProd A.bsize.get big (Spec.mul N a a)) := by
  obtain ⟨C', t, t2, e, h1, h2, -⟩ :=
    C63_multiply_x2_partial hA hC hCNB hCMB hCbs h6 hsc big junk hprod
  refine ⟨C', ?_, h1, h2⟩
  unfold EllB.multiplySame
  rw [if_pos ⟨hα, hβ⟩, e]
  rfl

/-- **C63**, `bml_multiply` of a matrix with itself, partial: `C := α A A + β C` otherwise. -/
theorem C63_multiply_same_general_partial {N : Nat} {A C : EllB R} {a c : Spec.Mat R}
    (hA : A.Represents N a) (hC : C.Represents N c) (hCNB : C.NB = A.NB) (hCMB : C.MB = A.MB)
    (hCbs : C.bsize = A.bsize) (h6 : SmallBlocks A)
    (h0 : 0 < C.NB) (hMB0 : 0 < C.MB) (hM : C.M ≤ N) {g : EllB.Glob} (hg : g.mb ≠ 0)
    {sc sc' : Sched} (hsc : IsSched 0 A.NB sc) (hsc' : IsSched 0 A.NB sc') {nz : R → Bool}
    (hnz : ∀ x, nz x = false → x = 0) (big : R → Bool) {isOne isZero : R → Bool} (junk : Nat → R)
    {α β : R} (hαβ : ¬ (isOne α = true ∧ isZero β = true)) (hprod : ProdFit A A A.MB)
    (hfit : EllB.BlocksFit big C.bsize.get C.NB C.MB (fun i j => β * c i j +
      α * EllB.keepProd A.bsize.get big (Spec.mul N a a) i j))
    (hroom : (C.Tidy ∧ C.Ample) ∨ (C.Clean ∧ nz β = true ∧ NoneDropped big C (fun i j => β * c i j +
      α * EllB.keepProd A.bsize.get big (Spec.mul N a a) i j))) :
    ∃ C', EllB.multiplySame g sc sc' nz big isOne isZero junk A C α β = .ok (g, C') ∧
      EllB.Same C C' ∧ C'.Tidy ∧
      C'.Represents N (EllB.keepBlk A.bsize.get big (fun i j => β * c i j +
        α * EllB.keepProd A.bsize.get big (Spec.mul N a a) i j)) ∧
      ∀ s, (∀ ib, ib < C.NB → C.bsize.get ib = s) → C.Tidy ∧ C.Ample → C'.Ample := by
  have h6C : SmallBlocks C := by
    intro ib hib; rw [hCbs]; exact h6 ib (by rw [← hCNB]; exact hib)
  obtain ⟨e1, h1⟩ := multiply_tmp hC h0 hMB0 hM h6C hg
  obtain ⟨A2, t, t2, e2, s2, h2, -⟩ := C63_multiply_x2_partial hA (EllB.represents_iff.2 ⟨_, h1⟩) hCNB
    hCMB hCbs h6 hsc big junk hprod
  obtain ⟨C', e3, q1, q2, q3, -, q4⟩ := C62_add_partial hC h2 s2.NB s2.MB s2.bsize h0
    (sc := sc') (by rw [hCNB]; exact hsc') hnz big junk β α hfit hroom
  refine ⟨C', ?_, q1, q2, ?_, q4⟩
  · unfold EllB.multiplySame
    rw [if_neg hαβ, e1, Res.bind_ok]
    simp only
    rw [e2, Res.bind_ok]
    simp only
    rw [e3]
    rfl
  · rw [hCbs] at q3; exact q3

/-- `2 A A - C` and `A A` for 4 × 4 blocks. -/
example : (∃ C', EllB.multiplySame ⟨some ebU.bsize, 2, 2⟩ [(0, 1), (1, 0)] [(0, 0), (1, 1)] nzI nzI
      (fun x => decide (x = 1)) (fun x => decide (x = 0)) (fun _ => 9) ebU ebV 2 (-1) =
      .ok (⟨some ebU.bsize, 2, 2⟩, C') ∧ C'.Tidy) ∧
    ∃ C', EllB.multiplySame ⟨some ebU.bsize, 2, 2⟩ [(0, 1), (1, 0)] [(0, 0), (1, 1)] nzI nzI
      (fun x => decide (x = 1)) (fun x => decide (x = 0)) (fun _ => 9) ebU ebV 1 0 =
      .ok (⟨some ebU.bsize, 2, 2⟩, C') := by
  obtain ⟨hT, hAm⟩ := C62_uniform_room ebV_spec.1 ebV_spec.2.1 ebU_bs
  obtain ⟨C', e, -, h, -⟩ := C63_multiply_same_general_partial ebU_spec.1 ebV_spec.1 rfl rfl rfl
    ebU_small (by decide) (by decide) (by decide) (g := ⟨some ebU.bsize, 2, 2⟩)
    (by decide) (sc := [(0, 1), (1, 0)]) (show List.Perm [1, 0] [0, 1] by decide)
    (sc' := [(0, 0), (1, 1)]) (show List.Perm [0, 1] [0, 1] by decide) nzI_zero nzI
    (isOne := fun x => decide (x = 1)) (isZero := fun x => decide (x = 0)) (fun _ => 9)
    (α := 2) (β := -1) (by decide) (prodFit_of_le (by decide)) (EllB.blocksFit_of_le (by decide) _)
    (Or.inl ⟨hT, hAm⟩)
  obtain ⟨C2, e2, -⟩ := C63_multiply_same_partial ebU_spec.1 ebV_spec.1 rfl rfl rfl
    ebU_small ⟨some ebU.bsize, 2, 2⟩ (sc := [(0, 1), (1, 0)]) [(0, 0), (1, 1)]
    (show List.Perm [1, 0] [0, 1] by decide) nzI nzI
    (isOne := fun x => decide (x = 1)) (isZero := fun x => decide (x = 0)) (fun _ => 9)
    (α := 1) (β := 0) (by decide) (by decide) (prodFit_of_le (by decide))
  exact ⟨⟨C', e, h⟩, C2, e2⟩

end Bml.Props
