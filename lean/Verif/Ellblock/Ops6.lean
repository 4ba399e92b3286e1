import Verif.Ellblock.Ops5

/-!
# Block-ELLPACK: copies, scaling
-/

set_option linter.unusedSectionVars false

namespace Bml

namespace EllB

variable {R : Type} {E : Prop}

section
variable [AddCommMonoid R] {A : EllB R} {L : Nat → BRow R} {N : Nat} {a : Spec.Mat R}

theorem sched_split {lo hi : Nat} {sc : Sched} (h : IsSched lo hi sc) {pre post : Sched}
    {ti : Nat × Nat} (hs : sc = pre ++ ti :: post) :
    lo ≤ ti.2 ∧ ti.2 < hi ∧ ti.2 ∉ pre.map Prod.snd := by
  have hm : ti.2 ∈ sc.map Prod.snd := by rw [hs]; simp
  obtain ⟨h1, h2⟩ := (h.mem _).1 hm
  refine ⟨h1, h2, ?_⟩
  have hn := h.nodup
  rw [hs, List.map_append, List.map_cons, List.nodup_append] at hn
  intro hmem
  exact hn.2.2 ti.2 hmem ti.2 (by simp) rfl

/-- `bml_copy_new`: needs block sizes between 1 and 9. -/
theorem Rows.wp_copyMatrix (h : A.Rows N L a) (hMB : 0 < A.MB) (hM : A.M ≤ N) (hNB : 0 < A.NB)
    (hbs : ∀ ib, ib < A.NB → 0 < A.bsize.get ib ∧ A.bsize.get ib < 10) {g : Glob} (hg : g.mb ≠ 0)
    {sc : Sched} (hsc : IsSched 0 A.NB sc) :
    (copyMatrix g sc A).wp E (fun r => r.1 = g ∧ ∃ L', r.2.Rows N L' a ∧ r.2.Clean ∧ Same A r.2 ∧
      ∀ ib, ib < A.NB → (L' ib).map Prod.fst = (L ib).map Prod.fst) := by
  unfold copyMatrix
  have hsum := h.N_eq
  rw [blockMatrix_eq hNB hMB (by rw [h.is.bs_size]) (fun ib hib => by have := hbs ib hib; omega)
    (by rw [hsum]; exact hM) hg, Res.bind_ok]
  simp only
  have hc1 : copyTo A.NB (⟨A.NB, fun _ => 0⟩ : Arr Nat) A.nnzb =
      .ok ⟨A.NB, fun k => if k < A.NB then A.nnzb.get k else 0⟩ := by
    unfold copyTo
    rw [if_pos ⟨by rw [h.is.nz_size], le_rfl⟩]
  have hc2 : copyTo (A.NB * A.MB) (⟨A.NB * A.MB, fun _ => unset⟩ : Arr Nat) A.indexb =
      .ok ⟨A.NB * A.MB, fun k => if k < A.NB * A.MB then A.indexb.get k else unset⟩ := by
    unfold copyTo
    rw [if_pos ⟨by rw [h.is.ix_size], le_rfl⟩]
  simp only [empty]
  rw [hc1, Res.bind_ok, hc2, Res.bind_ok]
  simp only [Res.wp_bind, Res.wp_pure]
  rw [hsum]
  set B0 : EllB R := {
    N := N, M := A.M, NB := A.NB, MB := A.MB, bsize := ⟨A.NB, A.bsize.get⟩,
    indexb := ⟨A.NB * A.MB, fun k => if k < A.NB * A.MB then A.indexb.get k else unset⟩,
    nnzb := ⟨A.NB, fun k => if k < A.NB then A.nnzb.get k else 0⟩,
    ptr := ⟨A.NB * A.MB, fun _ => none⟩, heap := fun _ => none, next := 0 } with hB0
  have hbsz : (⟨A.NB, A.bsize.get⟩ : Arr Nat) = A.bsize := by
    rw [← h.is.bs_size]
  have hsame0 : Same A B0 := ⟨h.dim.symm, rfl, rfl, rfl, hbsz⟩
  set tgt : Nat → Option (Arr R) := fun k => ((L (k / A.MB))[k % A.MB]?).map fun p =>
    (⟨A.bsize.get (k / A.MB) * A.bsize.get p.1, p.2.get⟩ : Arr R) with htgt
  have htadd : ∀ ib jp, jp < A.MB → tgt (ib * A.MB + jp) = ((L ib)[jp]?).map fun p =>
      (⟨A.bsize.get ib * A.bsize.get p.1, p.2.get⟩ : Arr R) := by
    intro ib jp hjp
    obtain ⟨q1, q2⟩ := div_addr (ib := ib) hjp
    rw [htgt]
    simp only
    rw [q1, q2]
  refine wp_forList (fun done (B : EllB R) => Same A B ∧ B.nnzb = B0.nnzb ∧ B.indexb = B0.indexb ∧
      B.ptr.size = A.NB * A.MB ∧
      B.Slots (fun k => if k / A.MB ∈ done.map Prod.snd then tgt k else none))
    ⟨hsame0, rfl, rfl, rfl, Slots.congr (Slots.of_eq (A' := B0) (empty_slots (N := N) (M := A.M)
      (NB := A.NB) (MB := A.MB) (bs := ⟨A.NB, A.bsize.get⟩)) rfl rfl rfl) (fun k _ => if_neg (by simp))⟩ ?_ ?_
  · rintro pre ⟨t, ib⟩ post hsplit B ⟨hs, hnz, hix, hps, hS⟩
    obtain ⟨-, hib, hnot⟩ := sched_split hsc hsplit
    simp only at hib hnot ⊢
    rw [hs.bsize, h.is.bsize_eq hib, Res.bind_ok, if_neg (by have := hbs ib hib; omega),
      if_neg (by have := hbs ib hib; omega), h.is.nnzb_eq hib, Res.bind_ok]
    refine wp_loop' (fun n (B : EllB R) => Same A B ∧ B.nnzb = B0.nnzb ∧ B.indexb = B0.indexb ∧
      B.ptr.size = A.NB * A.MB ∧ B.Slots (fun k => if k / A.MB ∈ pre.map Prod.snd ∨
        (k / A.MB = ib ∧ k % A.MB < n) then tgt k else none))
      ⟨hs, hnz, hix, hps, hS.congr (fun k _ => if_congr (by simp) rfl rfl)⟩ ?_ ?_
    · rintro jp hjp B' ⟨hs', hnz', hix', hps', hS'⟩
      obtain ⟨⟨jb, b⟩, hx⟩ : ∃ x, (L ib)[jp]? = some x := ⟨_, List.getElem?_eq_getElem hjp⟩
      have hjM := h.is.lt_of_slot hib hx
      have hjb : jb < A.NB := (h.good ib hib).lt (jb, b) (List.mem_of_getElem? hx)
      have hsz : A.bsize.get ib * A.bsize.get jb ≤ b.size :=
        (h.good ib hib).size (jb, b) (List.mem_of_getElem? hx)
      have hlt := addr_lt hib hjM
      obtain ⟨q1, q2⟩ := div_addr (ib := ib) hjM
      have hread : B'.indexb.read (ib * A.MB + jp) = .ok jb := by
        rw [hix', Arr.read_ok (show _ < A.NB * A.MB from hlt)]
        show Res.ok (if _ then _ else _) = _
        rw [if_pos hlt, (h.is.slot ib jp jb b hib hx).1]
      simp only [ROWMAJOR]
      rw [hread, Res.bind_ok, if_neg (by omega), hS'.read_none (by rw [hps']; exact hlt) (by
        rw [q1, q2, if_neg]
        rintro (hc | ⟨-, hc⟩)
        · exact hnot hc
        · omega), Res.bind_ok]
      simp only
      rw [Res.bind_ok, h.is.bsize_eq hjb, Res.bind_ok, h.is.block_eq hib hx, Res.bind_ok]
      unfold copyNew
      rw [if_pos hsz, Res.bind_ok]
      obtain ⟨B2, e2, hS2, hs2, hn2, hi2, hp2⟩ := hS'.alloc (by rw [hps']; exact hlt)
        (⟨A.bsize.get ib * A.bsize.get jb, b.get⟩ : Arr R)
      rw [e2]
      refine ⟨hs'.trans hs2, hn2.trans hnz', hi2.trans hix', hp2.trans hps', hS2.congr ?_⟩
      intro k hk
      rw [hp2, hps'] at hk
      by_cases he : k = ib * A.MB + jp
      · subst he
        rw [upd_same, q1, q2, if_pos (Or.inr ⟨rfl, by omega⟩), htadd ib jp hjM, hx]
        rfl
      · rw [upd_ne _ _ he]
        refine if_congr ?_ rfl rfl
        obtain ⟨-, -, q3⟩ := addr_div hk
        constructor
        · rintro (hc | ⟨hc, hc'⟩)
          · exact Or.inl hc
          · refine Or.inr ⟨hc, ?_⟩
            have : k % A.MB ≠ jp := by
              intro e
              rw [hc, e] at q3
              exact he q3.symm
            omega
        · rintro (hc | ⟨hc, hc'⟩)
          · exact Or.inl hc
          · exact Or.inr ⟨hc, by omega⟩
    · rintro B' ⟨hs', hnz', hix', hps', hS'⟩
      refine ⟨hs', hnz', hix', hps', hS'.congr ?_⟩
      intro k hk
      simp only [List.map_append, List.map_cons, List.map_nil, List.mem_append, List.mem_singleton]
      by_cases h1 : k / A.MB ∈ pre.map Prod.snd
      · rw [if_pos (Or.inl h1), if_pos (Or.inl h1)]
      · by_cases h2 : k / A.MB = ib
        · rw [if_pos (Or.inr h2)]
          split
          · rfl
          · next hc =>
            rw [htgt]
            simp only
            rw [h2, List.getElem?_eq_none]
            · rfl
            · by_contra hc'
              exact hc (Or.inr ⟨h2, by omega⟩)
        · rw [if_neg (by rintro (h | h); exacts [h1 h, h2 h]),
            if_neg (by rintro (h | ⟨h, -⟩); exacts [h1 h, h2 h])]
  · rintro B ⟨hs, hnz, hix, hps, hS⟩
    refine ⟨trivial, ?_⟩
    have hS' : B.Slots tgt := hS.congr (fun k hk => by
      rw [hps] at hk
      obtain ⟨q1, -, -⟩ := addr_div hk
      rw [if_pos ((hsc.mem _).2 ⟨Nat.zero_le _, q1⟩)])
    have hcols : ∀ (ib jp c : Nat), ((L ib).map Prod.fst)[jp]? = some c → ∃ b, (L ib)[jp]? = some (c, b) := by
      intro ib jp c hc
      rw [List.getElem?_map] at hc
      cases hx : (L ib)[jp]? with
      | none => rw [hx] at hc; cases hc
      | some p =>
        rw [hx] at hc
        obtain ⟨c', b⟩ := p
        cases hc
        exact ⟨b, rfl⟩
    obtain ⟨L', hL', hL'c⟩ := hS'.rows_of (N := N) (a := a) (fun ib => (L ib).map Prod.fst)
      (by rw [hs.bsize, hs.NB]; exact h.is.bs_size)
      (by rw [hnz, hs.NB]) (by rw [hix, hs.NB, hs.MB]) (by rw [hps, hs.NB, hs.MB])
      (by rw [hs.N]; exact h.dim) (by rw [hs.bsize, hs.NB]; exact h.N_eq)
      (by
        intro ib hib
        rw [hs.NB] at hib
        rw [hnz, List.length_map]
        show (if _ then _ else _) = _
        rw [if_pos hib, h.is.nz ib hib])
      (by
        intro ib hib
        rw [hs.NB] at hib
        rw [List.length_map, hs.MB]
        exact h.is.le ib hib)
      (by
        intro ib hib
        rw [hs.NB] at hib
        exact (h.good ib hib).nodup)
      (by
        intro ib hib c hc
        rw [hs.NB] at hib ⊢
        obtain ⟨p, hp, rfl⟩ := List.mem_map.1 hc
        exact (h.good ib hib).lt p hp)
      (by
        intro ib jp c hib hc
        rw [hs.NB] at hib
        obtain ⟨b, hx⟩ := hcols ib jp c hc
        rw [hix, hs.MB]
        show (if _ then _ else _) = _
        rw [if_pos (addr_lt hib (h.is.lt_of_slot hib hx)), (h.is.slot ib jp c b hib hx).1])
      (by
        intro ib jp c hib hc
        rw [hs.NB] at hib
        obtain ⟨b, hx⟩ := hcols ib jp c hc
        have hm := List.mem_of_getElem? hx
        rw [hs.MB, hs.bsize, htadd ib jp (h.is.lt_of_slot hib hx), hx]
        refine ⟨_, rfl, le_rfl, ?_⟩
        intro ii jj h1 h2
        show b.get _ = _
        rw [← h.den ib c ii jj hib ((h.good ib hib).lt (c, b) hm) h1 h2,
          val_of_mem (h.good ib hib).nodup hm])
      (by
        intro ib jb ii jj hib hjb hn h1 h2
        rw [hs.NB] at hib hjb
        rw [hs.bsize] at h1 h2 ⊢
        rw [← h.den ib jb ii jj hib hjb h1 h2, val_of_not_mem hn])
    refine ⟨L', hL', ?_, hs, fun ib hib => hL'c ib (by rw [hs.NB]; exact hib)⟩
    intro ib jp hib hjp hjM
    rw [hs.NB] at hib
    rw [hs.MB] at hjM ⊢
    refine hS'.null _ (by rw [hps]; exact addr_lt hib hjM) ?_
    rw [htadd ib jp hjM, List.getElem?_eq_none]
    · rfl
    · rw [hnz] at hjp
      replace hjp : (if ib < A.NB then A.nnzb.get ib else 0) ≤ jp := hjp
      rw [if_pos hib, h.is.nz ib hib] at hjp
      exact hjp

/-- The blocks of `A` have room in the allocations `B` already has at the same positions. -/
def Room (A B : EllB R) : Prop :=
  ∀ ib jp, ib < A.NB → jp < A.nnzb.get ib → B.ptr.get (ib * A.MB + jp) = none ∨
    ∃ x b, B.ptr.get (ib * A.MB + jp) = some x ∧ B.heap x = some b ∧
      A.bsize.get ib * A.bsize.get (A.indexb.get (ib * A.MB + jp)) ≤ b.size

/-- Every pointer cell is NULL or has a live allocation of its own. -/
structure Tidy (A : EllB R) : Prop where
  live : ∀ k x, k < A.ptr.size → A.ptr.get k = some x → ∃ b, A.heap x = some b
  own : ∀ k k' x, k < A.ptr.size → k' < A.ptr.size → A.ptr.get k = some x →
    A.ptr.get k' = some x → k = k'
  fresh : ∀ x, A.next ≤ x → A.heap x = none

theorem Tidy.slots (h : A.Tidy) : A.Slots (fun k => (A.ptr.get k).bind A.heap) := by
  refine ⟨?_, ?_, h.own, h.fresh⟩
  · intro k hk hn
    cases hp : A.ptr.get k with
    | none => rfl
    | some x =>
      obtain ⟨b, hb⟩ := h.live k x hk hp
      rw [hp] at hn
      simp only [Option.bind_some, hb] at hn
      cases hn
  · intro k b hk hb
    cases hp : A.ptr.get k with
    | none => rw [hp] at hb; cases hb
    | some x =>
      rw [hp] at hb
      exact ⟨x, rfl, hb⟩

theorem Slots.tidy {T : Nat → Option (Arr R)} (h : A.Slots T) : A.Tidy := by
  refine ⟨?_, h.own, h.fresh⟩
  intro k x hk hx
  cases hT : T k with
  | none => rw [h.null k hk hT] at hx; cases hx
  | some b =>
    obtain ⟨y, h1, h2⟩ := h.live k b hk hT
    rw [hx] at h1
    cases h1
    exact ⟨b, h2⟩

theorem Slots.tgt {T : Nat → Option (Arr R)} (h : A.Slots T) {k x : Nat} {b : Arr R}
    (hk : k < A.ptr.size) (hp : A.ptr.get k = some x) (hb : A.heap x = some b) : T k = some b := by
  cases hT : T k with
  | none => rw [h.null k hk hT] at hp; cases hp
  | some c =>
    obtain ⟨y, h1, h2⟩ := h.live k c hk hT
    rw [hp] at h1
    cases h1
    rw [hb] at h2
    exact h2.symm ▸ rfl

/-- `bml_copy` into an existing matrix. -/
theorem Rows.wp_copyInto (h : A.Rows N L a) {B : EllB R} (hT : B.Tidy) (hNB : B.NB = A.NB) (hMB : B.MB = A.MB)
    (hBbs : B.bsize = A.bsize) (hBN : B.N = N)
    (hz1 : B.nnzb.size = A.NB) (hz2 : B.indexb.size = A.NB * A.MB) (hz3 : B.ptr.size = A.NB * A.MB)
    (hroom : Room A B) {sc : Sched} (hsc : IsSched 0 A.NB sc) (junk : Nat → R) :
    (copyInto sc junk A B).wp E (fun B' => ∃ L', B'.Rows N L' a ∧ B'.Tidy ∧ Same B B' ∧
      (∀ ib, ib < A.NB → (L' ib).map Prod.fst = (L ib).map Prod.fst) ∧
      ∀ m, (∀ ib jb, ib < A.NB → jb < A.NB → m ≤ A.bsize.get ib * A.bsize.get jb) →
        B.Neat m → B'.Neat m) := by
  unfold copyInto
  rw [if_neg (not_not.2 hNB.symm)]
  have hc1 : copyTo A.NB B.nnzb A.nnzb =
      .ok ⟨A.NB, fun k => if k < A.NB then A.nnzb.get k else B.nnzb.get k⟩ := by
    unfold copyTo
    rw [if_pos ⟨by rw [h.is.nz_size], by rw [hz1]⟩, hz1]
  have hc2 : copyTo (A.NB * A.MB) B.indexb A.indexb =
      .ok ⟨A.NB * A.MB, fun k => if k < A.NB * A.MB then A.indexb.get k else B.indexb.get k⟩ := by
    unfold copyTo
    rw [if_pos ⟨by rw [h.is.ix_size], by rw [hz2]⟩, hz2]
  rw [hc1, Res.bind_ok, hc2, Res.bind_ok]
  set B0 : EllB R := { B with
    nnzb := ⟨A.NB, fun k => if k < A.NB then A.nnzb.get k else B.nnzb.get k⟩
    indexb := ⟨A.NB * A.MB, fun k => if k < A.NB * A.MB then A.indexb.get k else B.indexb.get k⟩ }
    with hB0
  -- what the cells of `A` hold
  set T0 : Nat → Option (Arr R) := fun k => (B.ptr.get k).bind B.heap with hT0
  have hS0 : B0.Slots T0 := hT.slots.of_eq rfl rfl rfl
  have hsame0 : Same B B0 := ⟨rfl, rfl, rfl, rfl, rfl⟩
  -- done: the cell holds the copy
  let Done : (Nat → Option (Arr R)) → Nat → Nat → Prop := fun T ib jp => ∀ jb b,
    (L ib)[jp]? = some (jb, b) → ∃ c, T (ib * A.MB + jp) = some c ∧
      A.bsize.get ib * A.bsize.get jb ≤ c.size ∧
      ∀ q, q < A.bsize.get ib * A.bsize.get jb → c.get q = b.get q
  refine wp_forList (fun done (B' : EllB R) => Same B B' ∧ B'.nnzb = B0.nnzb ∧
      B'.indexb = B0.indexb ∧ B'.ptr.size = A.NB * A.MB ∧ ∃ T, B'.Slots T ∧
      (∀ ib jp, ib ∈ done.map Prod.snd → jp < (L ib).length → Done T ib jp) ∧
      (∀ ib jp, ib < A.NB → jp < A.MB → ¬ (ib ∈ done.map Prod.snd ∧ jp < (L ib).length) →
        T (ib * A.MB + jp) = T0 (ib * A.MB + jp)))
    ⟨hsame0, rfl, rfl, hz3, T0, hS0, by simp, fun _ _ _ _ _ => rfl⟩ ?_ ?_
  · rintro pre ⟨t, ib⟩ post hsplit B1 ⟨hs, hnz, hix, hps, T1, hS1, hd1, hu1⟩
    obtain ⟨-, hib, hnot⟩ := sched_split hsc hsplit
    simp only at hib hnot ⊢
    rw [h.is.nnzb_eq hib, Res.bind_ok]
    refine wp_loop' (fun n (B' : EllB R) => Same B B' ∧ B'.nnzb = B0.nnzb ∧
      B'.indexb = B0.indexb ∧ B'.ptr.size = A.NB * A.MB ∧ ∃ T, B'.Slots T ∧
      (∀ ib' jp, (ib' ∈ pre.map Prod.snd ∨ (ib' = ib ∧ jp < n)) → jp < (L ib').length →
        Done T ib' jp) ∧
      (∀ ib' jp, ib' < A.NB → jp < A.MB →
        ¬ ((ib' ∈ pre.map Prod.snd ∧ jp < (L ib').length) ∨ (ib' = ib ∧ jp < n)) →
        T (ib' * A.MB + jp) = T0 (ib' * A.MB + jp)))
      ⟨hs, hnz, hix, hps, T1, hS1, fun ib' jp hc hj => hd1 ib' jp (by
        rcases hc with hc | ⟨-, hc⟩
        · exact hc
        · omega) hj, fun ib' jp q1 q2 hc => hu1 ib' jp q1 q2 (fun hh => hc (Or.inl hh))⟩ ?_ ?_
    · rintro jp hjp B2 ⟨hs2, hnz2, hix2, hps2, T2, hS2, hd2, hu2⟩
      obtain ⟨⟨jb, b⟩, hx⟩ : ∃ x, (L ib)[jp]? = some x := ⟨_, List.getElem?_eq_getElem hjp⟩
      have hjM := h.is.lt_of_slot hib hx
      have hjb : jb < A.NB := (h.good ib hib).lt (jb, b) (List.mem_of_getElem? hx)
      have hsz : A.bsize.get ib * A.bsize.get jb ≤ b.size :=
        (h.good ib hib).size (jb, b) (List.mem_of_getElem? hx)
      have hlt := addr_lt hib hjM
      have hlt2 : ib * A.MB + jp < B2.ptr.size := by rw [hps2]; exact hlt
      have hread : B2.indexb.read (ib * A.MB + jp) = .ok jb := by
        rw [hix2, Arr.read_ok (show _ < A.NB * A.MB from hlt)]
        show Res.ok (if _ then _ else _) = _
        rw [if_pos hlt, (h.is.slot ib jp jb b hib hx).1]
      have hcell := hu2 ib jp hib hjM (by
        rintro (⟨hc, -⟩ | ⟨-, hc⟩)
        · exact hnot hc
        · omega)
      simp only [ROWMAJOR]
      rw [h.is.blockAssert_eq hib hx, Res.bind_ok, hread, Res.bind_ok, h.is.bsize_eq hib,
        Res.bind_ok, h.is.bsize_eq hjb, Res.bind_ok]
      -- the state after the write
      have fin : ∀ {B3 : EllB R} {T3 : Nat → Option (Arr R)} {c : Arr R}, B3.Slots T3 →
          Same B2 B3 → B3.nnzb = B2.nnzb → B3.indexb = B2.indexb → B3.ptr.size = B2.ptr.size →
          (∀ k, k ≠ ib * A.MB + jp → T3 k = T2 k) → T3 (ib * A.MB + jp) = some c →
          A.bsize.get ib * A.bsize.get jb ≤ c.size →
          ∃ dst, B3.block (ib * A.MB + jp) = .ok dst ∧
          ∃ b', copyTo (A.bsize.get ib * A.bsize.get jb) dst b = .ok b' ∧
          (B3.putBlock (ib * A.MB + jp) b').wp E (fun B' => Same B B' ∧ B'.nnzb = B0.nnzb ∧
          B'.indexb = B0.indexb ∧ B'.ptr.size = A.NB * A.MB ∧ ∃ T, B'.Slots T ∧
          (∀ ib' jp', (ib' ∈ pre.map Prod.snd ∨ (ib' = ib ∧ jp' < jp + 1)) →
            jp' < (L ib').length → Done T ib' jp') ∧
          (∀ ib' jp', ib' < A.NB → jp' < A.MB →
            ¬ ((ib' ∈ pre.map Prod.snd ∧ jp' < (L ib').length) ∨ (ib' = ib ∧ jp' < jp + 1)) →
            T (ib' * A.MB + jp') = T0 (ib' * A.MB + jp'))) := by
        intro B3 T3 c hS3 hs3 hn3 hi3 hp3 ho3 hc3 hcs
        have hlt3 : ib * A.MB + jp < B3.ptr.size := by rw [hp3]; exact hlt2
        refine ⟨c, hS3.block hlt3 hc3, _, by unfold copyTo; rw [if_pos ⟨hsz, hcs⟩], ?_⟩
        obtain ⟨B4, e4, hS4, hs4, hn4, hi4, hp4⟩ := hS3.putBlock hlt3 hc3
          (⟨c.size, fun k => if k < A.bsize.get ib * A.bsize.get jb then b.get k else c.get k⟩ :
            Arr R)
        rw [e4]
        have hT4 : ∀ ib' jp', ib' < A.NB → jp' < A.MB → ¬ (ib' = ib ∧ jp' = jp) →
            upd T3 (ib * A.MB + jp) (some (⟨c.size, fun k =>
              if k < A.bsize.get ib * A.bsize.get jb then b.get k else c.get k⟩ : Arr R))
              (ib' * A.MB + jp') = T2 (ib' * A.MB + jp') := by
          intro ib' jp' q1 q2 hne
          have : ib' * A.MB + jp' ≠ ib * A.MB + jp := fun e => hne (addr_inj q2 hjM e)
          rw [upd_ne _ _ this, ho3 _ this]
        refine ⟨hs2.trans (hs3.trans hs4), hn4.trans (hn3.trans hnz2), hi4.trans (hi3.trans hix2),
          hp4.trans (hp3.trans hps2), _, hS4, ?_, ?_⟩
        · intro ib' jp' hcc hlen jb' b2 hx2
          by_cases he : ib' = ib ∧ jp' = jp
          · obtain ⟨rfl, rfl⟩ := he
            rw [hx] at hx2
            cases hx2
            refine ⟨_, upd_same _ _ _, hcs, ?_⟩
            intro q hq
            show (if _ then _ else _) = _
            rw [if_pos hq]
          · have hib' : ib' < A.NB := by
              rcases hcc with hcc | ⟨rfl, -⟩
              · have : ib' ∈ sc.map Prod.snd := by
                  rw [hsplit, List.map_append]
                  exact List.mem_append_left _ hcc
                exact ((hsc.mem _).1 this).2
              · exact hib
            have hjM' : jp' < A.MB := by
              have := h.is.le ib' hib'
              omega
            rw [hT4 ib' jp' hib' hjM' he]
            refine hd2 ib' jp' ?_ hlen jb' b2 hx2
            rcases hcc with hcc | ⟨h1, h2⟩
            · exact Or.inl hcc
            · refine Or.inr ⟨h1, ?_⟩
              have : jp' ≠ jp := fun e => he ⟨h1, e⟩
              omega
        · intro ib' jp' q1 q2 hcc
          rw [hT4 ib' jp' q1 q2 (fun e => hcc (Or.inr ⟨e.1, by omega⟩))]
          refine hu2 ib' jp' q1 q2 ?_
          rintro (hc | ⟨h1, h2⟩)
          · exact hcc (Or.inl hc)
          · exact hcc (Or.inr ⟨h1, by omega⟩)
      have hroom' := hroom ib jp hib (by rw [h.is.nz ib hib]; exact hjp)
      rcases hroom' with hnone | ⟨x, d, hp, hh, hds⟩
      · have hT2 : T2 (ib * A.MB + jp) = none := by
          rw [hcell, hT0]
          simp only
          rw [hnone]
          rfl
        rw [hS2.read_none hlt2 hT2, Res.bind_ok]
        simp only
        obtain ⟨B3, e3, hS3, hs3, hn3, hi3, hp3⟩ := hS2.alloc hlt2
          (⟨A.bsize.get ib * A.bsize.get jb, junk⟩ : Arr R)
        rw [e3, Res.bind_ok]
        obtain ⟨dst, ed, b', ecp, hfin⟩ := fin hS3 hs3 hn3 hi3 hp3 (fun k hk => upd_ne _ _ hk)
          (upd_same _ _ _) le_rfl
        rw [ed, Res.bind_ok, ecp, Res.bind_ok]
        exact hfin
      · have hT2 : T2 (ib * A.MB + jp) = some d := by
          rw [hcell, hT0]
          simp only
          rw [hp]
          exact hh
        obtain ⟨y, hy⟩ := hS2.read_some hlt2 hT2
        rw [hy, Res.bind_ok]
        simp only [pure_bind]
        rw [(h.is.slot ib jp jb b hib hx).1] at hds
        obtain ⟨dst, ed, b', ecp, hfin⟩ := fin hS2 (Same.refl _) rfl rfl rfl (fun _ _ => rfl) hT2 hds
        rw [ed, Res.bind_ok, ecp, Res.bind_ok]
        exact hfin
    · rintro B2 ⟨hs2, hnz2, hix2, hps2, T2, hS2, hd2, hu2⟩
      refine ⟨hs2, hnz2, hix2, hps2, T2, hS2, ?_, ?_⟩
      · intro ib' jp hm hlen
        simp only [List.map_append, List.map_cons, List.map_nil, List.mem_append,
          List.mem_singleton] at hm
        refine hd2 ib' jp ?_ hlen
        rcases hm with hm | rfl
        · exact Or.inl hm
        · exact Or.inr ⟨rfl, hlen⟩
      · intro ib' jp q1 q2 hm
        simp only [List.map_append, List.map_cons, List.map_nil, List.mem_append,
          List.mem_singleton] at hm
        refine hu2 ib' jp q1 q2 ?_
        rintro (⟨hc, hl⟩ | ⟨hc, hl⟩)
        · exact hm ⟨Or.inl hc, hl⟩
        · exact hm ⟨Or.inr hc, by rw [hc]; exact hl⟩
  · rintro B' ⟨hs, hnz, hix, hps, T, hS, hd, hu⟩
    have hcols : ∀ (ib jp c : Nat), ((L ib).map Prod.fst)[jp]? = some c → ∃ b, (L ib)[jp]? = some (c, b) := by
      intro ib jp c hc
      rw [List.getElem?_map] at hc
      cases hx : (L ib)[jp]? with
      | none => rw [hx] at hc; cases hc
      | some p =>
        rw [hx] at hc
        obtain ⟨c', b⟩ := p
        cases hc
        exact ⟨b, rfl⟩
    have eNB : B'.NB = A.NB := hs.NB.trans hNB
    have eMB : B'.MB = A.MB := hs.MB.trans hMB
    have ebs : B'.bsize = A.bsize := hs.bsize.trans hBbs
    obtain ⟨L', hL', hL'c⟩ := hS.rows_of (N := N) (a := a) (fun ib => (L ib).map Prod.fst)
      (by rw [ebs, eNB]; exact h.is.bs_size)
      (by rw [hnz, eNB]) (by rw [hix, eNB, eMB]) (by rw [hps, eNB, eMB])
      (by rw [hs.N]; exact hBN) (by rw [ebs, eNB]; exact h.N_eq)
      (by
        intro ib hib
        rw [eNB] at hib
        rw [hnz, List.length_map]
        show (if _ then _ else _) = _
        rw [if_pos hib, h.is.nz ib hib])
      (by
        intro ib hib
        rw [eNB] at hib
        rw [List.length_map, eMB]
        exact h.is.le ib hib)
      (by
        intro ib hib
        rw [eNB] at hib
        exact (h.good ib hib).nodup)
      (by
        intro ib hib c hc
        rw [eNB] at hib ⊢
        obtain ⟨p, hp, rfl⟩ := List.mem_map.1 hc
        exact (h.good ib hib).lt p hp)
      (by
        intro ib jp c hib hc
        rw [eNB] at hib
        obtain ⟨b, hx⟩ := hcols ib jp c hc
        rw [hix, eMB]
        show (if _ then _ else _) = _
        rw [if_pos (addr_lt hib (h.is.lt_of_slot hib hx)), (h.is.slot ib jp c b hib hx).1])
      (by
        intro ib jp c hib hc
        rw [eNB] at hib
        obtain ⟨b, hx⟩ := hcols ib jp c hc
        have hm := List.mem_of_getElem? hx
        obtain ⟨hl, -⟩ := List.getElem?_eq_some_iff.1 hx
        rw [eMB, ebs]
        obtain ⟨c', h1, h2, h3⟩ := hd ib jp ((hsc.mem _).2 ⟨by omega, hib⟩) hl c b hx
        refine ⟨c', h1, h2, ?_⟩
        intro ii jj q1 q2
        rw [h3 _ (addr_lt q1 q2), ← h.den ib c ii jj hib ((h.good ib hib).lt (c, b) hm) q1 q2,
          val_of_mem (h.good ib hib).nodup hm])
      (by
        intro ib jb ii jj hib hjb hn h1 h2
        rw [eNB] at hib hjb
        rw [ebs] at h1 h2 ⊢
        rw [← h.den ib jb ii jj hib hjb h1 h2, val_of_not_mem hn])
    refine ⟨L', hL', hS.tidy, hs, fun ib hib => hL'c ib (by rw [eNB]; exact hib), ?_⟩
    intro m hm hB
    refine ⟨?_, hS.own, hS.fresh⟩
    intro k x hk hx
    obtain ⟨b, hb⟩ := hS.tidy.live k x hk hx
    refine ⟨b, hb, ?_⟩
    have hTk := hS.tgt hk hx hb
    rw [hps] at hk
    obtain ⟨k1, k2, k3⟩ := addr_div hk
    rw [← k3] at hTk
    by_cases hl : k % A.MB < (L (k / A.MB)).length
    · obtain ⟨⟨c, d⟩, hy⟩ : ∃ y, (L (k / A.MB))[k % A.MB]? = some y :=
        ⟨_, List.getElem?_eq_getElem hl⟩
      obtain ⟨c', h1, h2, -⟩ := hd _ _ ((hsc.mem _).2 ⟨Nat.zero_le _, k1⟩) hl c d hy
      rw [hTk] at h1
      cases h1
      exact le_trans (hm _ c k1 ((h.good _ k1).lt (c, d) (List.mem_of_getElem? hy))) h2
    · rw [hu _ _ k1 k2 (fun hh => hl hh.2), hT0] at hTk
      simp only at hTk
      rw [k3] at hTk
      cases hp : B.ptr.get k with
      | none => rw [hp] at hTk; cases hTk
      | some y =>
        rw [hp] at hTk
        obtain ⟨d, h1, h2⟩ := hB.live k y (by rw [hz3]; exact hk) hp
        rw [Option.bind_some, h1] at hTk
        cases hTk
        exact h2

end

section
variable [CommRing R] {A : EllB R} {L : Nat → BRow R} {N : Nat} {a : Spec.Mat R}

theorem scal_eq {n : Nat} {b : Arr R} (hn : n ≤ b.size) (c : R) :
    scal n c b = .ok ⟨b.size, fun k => if k < n then c * b.get k else b.get k⟩ := by
  unfold scal
  obtain ⟨r, e, h1, h2⟩ := Res.wp_exists (wp_loop' (E := False) (n := n) (s := b)
    (f := fun k b => do
      let v ← b.read k
      b.write k (c * v)) (Q := fun r => r.size = b.size ∧ ∀ k, r.get k =
        if k < n then c * b.get k else b.get k)
    (fun m (r : Arr R) => r.size = b.size ∧ ∀ k, r.get k = if k < m then c * b.get k else b.get k)
    ⟨rfl, fun k => by rw [if_neg (by omega)]⟩ (by
      rintro m hm r ⟨h1, h2⟩
      simp only [Res.wp_bind, Arr.wp_read, Arr.wp_write]
      refine ⟨by omega, by omega, h1, ?_⟩
      intro k
      by_cases he : k = m
      · subst he
        rw [upd_same, if_pos (by omega), h2, if_neg (by omega)]
      · rw [upd_ne _ _ he, h2]
        exact if_congr (by omega) rfl rfl) (fun _ h => h))
  rw [e]
  congr 1
  cases r with
  | mk s f =>
    simp only at h1 h2
    subst h1
    congr 1
    funext k
    exact h2 k

/-- The blocks scaled. -/
def scaled (bs : Nat → Nat) (c : R) (ib jb : Nat) (b : Arr R) : Arr R :=
  ⟨b.size, fun k => if k < bs ib * bs jb then c * b.get k else b.get k⟩

theorem Rows.scaled (h : A.Rows N L a) {A' : EllB R} {c : R}
    (hI : A'.Is (fun ib => if ib < A.NB then
      (L ib).map (fun p => (p.1, EllB.scaled A.bsize.get c ib p.1 p.2)) else L ib))
    (hs : Same A A') : ∃ L', A'.Rows N L' (fun i j => c * a i j) ∧
      ∀ ib, ib < A.NB → (L' ib).map Prod.fst = (L ib).map Prod.fst := by
  refine ⟨_, h.mapped hI hs ?_ ?_ ?_, ?_⟩
  · intro ib jb b hib hm
    exact (h.good ib hib).size _ hm
  · intro ib jb b ii jj hib hm h1 h2
    unfold EllB.scaled
    simp only
    rw [if_pos (addr_lt h1 h2), ← h.den ib jb ii jj hib ((h.good ib hib).lt (jb, b) hm) h1 h2,
      val_of_mem (h.good ib hib).nodup hm]
  · intro ib jb ii jj hib hjb hn h1 h2
    rw [← h.den ib jb ii jj hib hjb h1 h2, val_of_not_mem hn, mul_zero]
  · intro ib hib
    rw [if_pos hib, List.map_map]
    rfl

theorem Same.symm {A B : EllB R} (h : Same A B) : Same B A :=
  ⟨h.N.symm, h.M.symm, h.NB.symm, h.MB.symm, h.bsize.symm⟩

/-- `bml_scale_inplace`. -/
theorem Rows.wp_scaleInplace (h : A.Rows N L a) (c : R) :
    (scaleInplace c A).wp E (fun A' => ∃ L', A'.Rows N L' (fun i j => c * a i j) ∧ Same A A' ∧
      (A.Clean → A'.Clean) ∧ (∀ ib, ib < A.NB → (L' ib).map Prod.fst = (L ib).map Prod.fst) ∧
      ∀ m, A.Neat m → A'.Neat m) := by
  unfold scaleInplace
  have key := h.is.mapRows (E := E) (fun ib A' => A'.nnzb.read ib) (fun ib jp A' => do
      let jb ← A'.indexb.read (ROWMAJOR ib jp A'.NB A'.MB)
      let bi ← A'.bsize.read ib
      let bj ← A'.bsize.read jb
      let b ← A'.blockAssert (ROWMAJOR ib jp A'.NB A'.MB)
      let b ← scal (bi * bj) c b
      A'.putBlock (ROWMAJOR ib jp A'.NB A'.MB) b) (EllB.scaled A.bsize.get c) (by
    intro ib A' L' hib hs hI hl
    rw [hI.nnzb_eq (by rw [hs.NB]; exact hib), hl]) (by
    intro ib jp jb b A' L' hib hs hI hx hx'
    have hib' : ib < A'.NB := by rw [hs.NB]; exact hib
    have hm := List.mem_of_getElem? hx
    have hjb : jb < A'.NB := by rw [hs.NB]; exact (h.good ib hib).lt (jb, b) hm
    simp only [ROWMAJOR]
    rw [hI.index_eq hib' hx', Res.bind_ok, hI.bsize_eq hib', Res.bind_ok, hI.bsize_eq hjb,
      Res.bind_ok, hI.blockAssert_eq hib' hx', Res.bind_ok, hs.bsize,
      scal_eq ((h.good ib hib).size _ hm), Res.bind_ok, hI.putBlock_eq hib' hx', hs.MB]
    rfl)
  refine Res.wp_mono key ?_
  rintro A' ⟨hI, hs, hc, hne⟩
  obtain ⟨L', hL', hf⟩ := h.scaled hI hs
  exact ⟨L', hL', hs, hc, hf, fun m => hne m fun _ _ _ h => h⟩

/-- `bml_scale` into another matrix. -/
theorem Rows.wp_scaleInto (h : A.Rows N L a) {B : EllB R} (hT : B.Tidy) (hNB : B.NB = A.NB)
    (hMB : B.MB = A.MB) (hBbs : B.bsize = A.bsize) (hBN : B.N = N) (hz1 : B.nnzb.size = A.NB)
    (hz2 : B.indexb.size = A.NB * A.MB) (hz3 : B.ptr.size = A.NB * A.MB) (hroom : Room A B)
    {sc : Sched} (hsc : IsSched 0 A.NB sc) (junk : Nat → R) (c : R) :
    (scaleInto sc junk c A B).wp E (fun B' => ∃ L', B'.Rows N L' (fun i j => c * a i j) ∧
      Same B B' ∧ ∀ m, (∀ ib jb, ib < A.NB → jb < A.NB → m ≤ A.bsize.get ib * A.bsize.get jb) →
        B.Neat m → B'.Neat m) := by
  unfold scaleInto
  rw [Res.wp_bind]
  refine Res.wp_mono (h.wp_copyInto hT hNB hMB hBbs hBN hz1 hz2 hz3 hroom hsc junk) ?_
  rintro B1 ⟨L1, h1, -, hs1, hc1, hne1⟩
  have eNB : B1.NB = A.NB := hs1.NB.trans hNB
  have eMB : B1.MB = A.MB := hs1.MB.trans hMB
  have ebs : B1.bsize = A.bsize := hs1.bsize.trans hBbs
  have hlen : ∀ ib, ib < A.NB → (L1 ib).length = (L ib).length := by
    intro ib hib
    have := congrArg List.length (hc1 ib hib)
    simpa using this
  have key := h1.is.mapRows (E := E) (fun ib _ => A.nnzb.read ib) (fun ib jp B' => do
      let jb ← A.indexb.read (ROWMAJOR ib jp A.NB A.MB)
      let bi ← A.bsize.read ib
      let bj ← A.bsize.read jb
      let b ← B'.blockAssert (ROWMAJOR ib jp A.NB A.MB)
      let b ← scal (bi * bj) c b
      B'.putBlock (ROWMAJOR ib jp A.NB A.MB) b) (EllB.scaled B1.bsize.get c) (by
    intro ib B' L' hib hs hI hl
    rw [eNB] at hib
    rw [h.is.nnzb_eq hib, hlen ib hib]) (by
    intro ib jp jb b B' L' hib hs hI hx hx'
    have hib' : ib < B'.NB := by rw [hs.NB]; exact hib
    have hm := List.mem_of_getElem? hx
    have hjb : jb < A.NB := by rw [← eNB]; exact (h1.good ib hib).lt (jb, b) hm
    have hsz : B1.bsize.get ib * B1.bsize.get jb ≤ b.size := (h1.good ib hib).size _ hm
    rw [eNB] at hib
    have hx0 : ∃ b0, (L ib)[jp]? = some (jb, b0) := by
      have := congrArg (fun l => l[jp]?) (hc1 ib hib)
      simp only [List.getElem?_map, hx] at this
      cases hL : (L ib)[jp]? with
      | none => rw [hL] at this; cases this
      | some p =>
        rw [hL] at this
        obtain ⟨c', b0⟩ := p
        simp only [Option.map_some, Option.some.injEq] at this
        subst this
        exact ⟨b0, rfl⟩
    obtain ⟨b0, hx0⟩ := hx0
    have e1 := hI.blockAssert_eq hib' hx'
    have e2 := hI.putBlock_eq hib' hx'
      (⟨b.size, fun k => if k < B1.bsize.get ib * B1.bsize.get jb then c * b.get k else b.get k⟩ :
        Arr R)
    rw [hs.MB, eMB] at e1 e2
    simp only [ROWMAJOR]
    rw [h.is.index_eq hib hx0, Res.bind_ok, h.is.bsize_eq hib, Res.bind_ok, h.is.bsize_eq hjb,
      Res.bind_ok, e1, Res.bind_ok, ← ebs, scal_eq hsz, Res.bind_ok, e2, eMB]
    rfl)
  rw [eNB] at key
  refine Res.wp_mono key ?_
  rintro B' ⟨hI, hs, -, hne⟩
  rw [← eNB] at hI
  obtain ⟨L', hL', -⟩ := h1.scaled hI hs
  exact ⟨L', hL', hs1.trans hs, fun m hm hB => hne m (fun _ _ _ h => h) (hne1 m hm hB)⟩

theorem Rows.room_self (h : A.Rows N L a) {B : EllB R} {L' : Nat → BRow R}
    (hB : B.Rows N L' a) (hs : Same A B)
    (hc : ∀ ib, ib < A.NB → (L' ib).map Prod.fst = (L ib).map Prod.fst) : Room A B := by
  intro ib jp hib hjp
  rw [h.is.nz ib hib] at hjp
  obtain ⟨⟨jb, b⟩, hx⟩ : ∃ x, (L ib)[jp]? = some x := ⟨_, List.getElem?_eq_getElem hjp⟩
  have hib' : ib < B.NB := by rw [hs.NB]; exact hib
  obtain ⟨b', hx'⟩ : ∃ b', (L' ib)[jp]? = some (jb, b') := by
    have := congrArg (fun l => l[jp]?) (hc ib hib)
    simp only [List.getElem?_map, hx] at this
    cases hL : (L' ib)[jp]? with
    | none => rw [hL] at this; cases this
    | some p =>
      rw [hL] at this
      obtain ⟨c', b0⟩ := p
      simp only [Option.map_some, Option.some.injEq] at this
      subst this
      exact ⟨b0, rfl⟩
  obtain ⟨-, x, h1, h2⟩ := hB.is.slot ib jp jb b' hib' hx'
  rw [hs.MB] at h1
  refine Or.inr ⟨x, b', h1, h2, ?_⟩
  rw [(h.is.slot ib jp jb b hib hx).1, ← hs.bsize]
  exact (hB.good ib hib').size (jb, b') (List.mem_of_getElem? hx')

/-- `bml_scale_new`. -/
theorem Rows.wp_scaleNew (h : A.Rows N L a) (hMB : 0 < A.MB) (hM : A.M ≤ N) (hNB : 0 < A.NB)
    (hbs : ∀ ib, ib < A.NB → 0 < A.bsize.get ib ∧ A.bsize.get ib < 10) {g : Glob} (hg : g.mb ≠ 0)
    {sc sc' : Sched} (hsc : IsSched 0 A.NB sc) (hsc' : IsSched 0 A.NB sc') (junk : Nat → R)
    (c : R) :
    (scaleNew g sc sc' junk c A).wp E (fun r => r.1 = g ∧ Same A r.2 ∧
      ∃ L', r.2.Rows N L' (fun i j => c * a i j)) := by
  unfold scaleNew
  simp only [Res.wp_bind, Res.wp_pure]
  refine Res.wp_mono (h.wp_copyMatrix hMB hM hNB hbs hg hsc) ?_
  rintro ⟨g1, B⟩ ⟨rfl, L1, h1, hcl, hs, hc⟩
  have hI := h1.is
  refine Res.wp_mono (h.wp_scaleInto (hI.slots hcl).tidy hs.NB hs.MB hs.bsize h1.dim
    (by rw [hI.nz_size, hs.NB]) (by rw [hI.ix_size, hs.NB, hs.MB]) (by rw [hI.ptr_size, hs.NB, hs.MB])
    (h.room_self h1 hs hc) hsc' junk c) ?_
  rintro B' ⟨L', hL', hs', -⟩
  exact ⟨rfl, hs.trans hs', L', hL'⟩

end

end EllB

end Bml
