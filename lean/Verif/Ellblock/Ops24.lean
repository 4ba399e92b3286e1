import Verif.Ellblock.Model6
import Verif.Ellblock.Ops15

/-!
# Block-ELLPACK: conversion
-/

set_option linter.unusedSectionVars false

namespace Bml

namespace EllB

variable {R : Type} {E : Prop}

/-- The search with more fuel. -/
theorem findBlk_more {A : EllB R} {ib jb : Nat} : ∀ fuel jp ind fuel', fuel ≤ fuel' →
    A.findBlk ib jb jp fuel = .ok (some ind) → A.findBlk ib jb jp fuel' = .ok (some ind) := by
  intro fuel
  induction fuel with
  | zero => intro jp ind f' _ h; simp [findBlk] at h
  | succ n ih =>
    intro jp ind f' hle h
    obtain ⟨m, rfl⟩ : ∃ m, f' = m + 1 := ⟨f' - 1, by omega⟩
    unfold findBlk at h ⊢
    cases e : A.indexb.read (ROWMAJOR ib jp A.NB A.MB) with
    | ok c =>
      rw [e, Res.bind_ok] at h
      rw [Res.bind_ok]
      split at h
      · rename_i hc; rw [if_pos hc]; exact h
      · rename_i hc; rw [if_neg hc]; exact ih _ _ _ (by omega) h
    | error => rw [e] at h; cases h
    | ub => rw [e] at h; cases h

theorem findBlk_withLens (C : EllB R) (L : Nat → BRow R) (ib jb : Nat) : ∀ fuel jp,
    (C.withLens L).findBlk ib jb jp fuel = C.findBlk ib jb jp fuel := by
  intro fuel
  induction fuel with
  | zero => intro jp; rfl
  | succ n ih =>
    intro jp
    unfold findBlk
    simp only [ih]
    rfl

theorem Part.findBlk (C : EllB R) {L : Nat → BRow R} (h : C.Part L) {ib : Nat} (hi : ib < C.NB)
    {jb : Nat} (hj : jb ∈ (L ib).map Prod.fst) {n : Nat} (hn : (L ib).length ≤ n) :
    ∃ k b, C.findBlk ib jb 0 n = .ok (some (ib * C.MB + k)) ∧ (L ib)[k]? = some (jb, b) := by
  rcases Is.findBlk_cases (show (C.withLens L).Is L from h) hi jb with ⟨-, hno⟩ | ⟨k, b, e, hs⟩
  · exact absurd hj hno
  · rw [findBlk_withLens] at e
    exact ⟨k, b, findBlk_more _ _ _ _ hn e, hs⟩

theorem withBlock_withLens (C : EllB R) (L : Nat → BRow R) (ind : Nat) (b : Arr R) :
    (C.withLens L).withBlock ind b = (C.withBlock ind b).withLens L := by
  unfold withBlock withLens
  simp only
  split <;> rfl

/-- A block that is not complete: `bml_set_block` while the row count is ahead of the blocks. -/
theorem Part.setBlock {C : EllB R} {L : Nat → BRow R} (h : C.Part L) {ib : Nat} (hi : ib < C.NB)
    {jb : Nat} (hjb : jb < C.NB) {l : BRow R} {x : Arr R} (hL : L ib = l ++ [(jb, x)])
    (hl : jb ∉ l.map Prod.fst) {n : Nat} (hn : C.nnzb.read ib = .ok n) (hle : (L ib).length ≤ n)
    (hx : x.size = C.bsize.get ib * C.bsize.get jb) {el : Arr R}
    (hel : C.bsize.get ib * C.bsize.get jb ≤ el.size) :
    ∃ C' y, C.setBlock ib jb el = .ok C' ∧ Same C C' ∧ C'.nnzb = C.nnzb ∧
      y.size = C.bsize.get ib * C.bsize.get jb ∧
      (∀ k, k < C.bsize.get ib * C.bsize.get jb → y.get k = el.get k) ∧
      C'.Part (upd L ib (l ++ [(jb, y)])) ∧ C'.ptr = C.ptr := by
  have hbs : C.bsize.size = C.NB := h.bs_size
  obtain ⟨k, b, e, hs⟩ := h.findBlk (C := C) hi (jb := jb) (by rw [hL]; simp) hle
  have hk : k = l.length ∧ b = x := by
    rw [hL] at hs
    by_cases hk : k < l.length
    · rw [List.getElem?_append_left hk] at hs
      exact absurd (List.mem_map.2 ⟨_, List.mem_of_getElem? hs, rfl⟩) hl
    · rw [List.getElem?_append_right (by omega)] at hs
      obtain ⟨h1, h2⟩ := List.getElem?_eq_some_iff.1 hs
      simp only [List.length_singleton] at h1
      have : k - l.length = 0 := by omega
      simp only [this, List.getElem_cons_zero, Prod.mk.injEq, true_and] at h2
      exact ⟨by omega, h2.symm⟩
  obtain ⟨rfl, rfl⟩ := hk
  have hI : (C.withLens L).Is L := h
  have hb := hI.blockAssert_eq hi hs
  have hp := hI.putBlock_eq hi hs
    ⟨b.size, fun k => if k < C.bsize.get ib * C.bsize.get jb then el.get k else b.get k⟩
  have hw := hI.withBlock hi hs
    ⟨b.size, fun k => if k < C.bsize.get ib * C.bsize.get jb then el.get k else b.get k⟩
  refine ⟨C.withBlock (ib * C.MB + l.length)
    ⟨b.size, fun k => if k < C.bsize.get ib * C.bsize.get jb then el.get k else b.get k⟩,
    ⟨b.size, fun k => if k < C.bsize.get ib * C.bsize.get jb then el.get k else b.get k⟩,
    ?_, ?_, ?_, hx, ?_, ?_, ?_⟩
  · unfold EllB.setBlock
    rw [if_neg (by omega), if_neg (by omega), hn, Res.bind_ok, e, Res.bind_ok]
    simp only
    rw [Arr.read_ok (by omega), Res.bind_ok, Arr.read_ok (by omega), Res.bind_ok]
    have hb' : C.blockAssert (ib * C.MB + l.length) = .ok b := hb
    rw [hb', Res.bind_ok]
    unfold copyTo
    rw [if_pos ⟨hel, by omega⟩, Res.bind_ok]
    obtain ⟨-, a, h1, h2⟩ := hI.slot ib _ jb b hi hs
    unfold putBlock EllB.withBlock
    have ha : ib * C.MB + l.length < C.ptr.size := hI.addr hi (hI.lt_of_slot hi hs)
    rw [Arr.read_ok ha, Res.bind_ok]
    have h1' : C.ptr.get (ib * C.MB + l.length) = some a := h1
    have h2' : C.heap a = some b := h2
    rw [h1']
    simp only [h2']
  · obtain ⟨h1, h2, h3, h4, h5, -⟩ := withBlock_frame C (ib * C.MB + l.length)
      ⟨b.size, fun k => if k < C.bsize.get ib * C.bsize.get jb then el.get k else b.get k⟩
    exact ⟨h1, h2, h3, h4, h5⟩
  · exact (withBlock_frame C _ _).2.2.2.2.2.1
  · intro k hk
    simp only
    rw [if_pos hk]
  · have e2 : (L ib).set l.length (jb, ⟨b.size, fun k =>
        if k < C.bsize.get ib * C.bsize.get jb then el.get k else b.get k⟩) =
        l ++ [(jb, ⟨b.size, fun k =>
          if k < C.bsize.get ib * C.bsize.get jb then el.get k else b.get k⟩)] := by
      rw [hL, List.set_append_right _ _ (le_refl _), Nat.sub_self]
      rfl
    rw [e2] at hw
    have e3 : (C.withLens L).MB = C.MB := rfl
    rw [e3, withBlock_withLens] at hw
    exact ⟨hw.bs_size, rfl, hw.ix_size, hw.ptr_size, fun _ _ => rfl, hw.le, hw.slot, hw.own,
      hw.fresh⟩
  · exact (withBlock_frame C _ _).2.2.2.2.2.2.2

/-- Row `ib` of the matrix under conversion holds its first `n` blocks. -/
structure ConvRow (a : Spec.Mat R) (bs : Nat → Nat) (ib n : Nat) (l : BRow R) : Prop where
  cols : l.map Prod.fst = List.range n
  size : ∀ p ∈ l, p.2.size = bs ib * bs p.1
  val : ∀ p ∈ l, ∀ ii jj, ii < bs ib → jj < bs p.1 →
    p.2.get (ii * bs p.1 + jj) = a (off bs ib + ii) (off bs p.1 + jj)

theorem ConvRow.nil (a : Spec.Mat R) (bs : Nat → Nat) (ib : Nat) : ConvRow a bs ib 0 [] :=
  ⟨rfl, by simp, by simp⟩

theorem ConvRow.length {a : Spec.Mat R} {bs : Nat → Nat} {ib n : Nat} {l : BRow R}
    (h : ConvRow a bs ib n l) : l.length = n := by
  have := congrArg List.length h.cols
  rwa [List.length_map, List.length_range] at this

theorem ConvRow.snoc {a : Spec.Mat R} {bs : Nat → Nat} {ib n : Nat} {l : BRow R}
    (h : ConvRow a bs ib n l) {y : Arr R} (hy : y.size = bs ib * bs n)
    (hv : ∀ ii jj, ii < bs ib → jj < bs n →
      y.get (ii * bs n + jj) = a (off bs ib + ii) (off bs n + jj)) :
    ConvRow a bs ib (n + 1) (l ++ [(n, y)]) := by
  refine ⟨?_, ?_, ?_⟩
  · rw [List.map_append, h.cols, List.range_succ]; rfl
  · intro p hp
    rcases List.mem_append.1 hp with hp | hp
    · exact h.size p hp
    · rw [List.mem_singleton.1 hp]; exact hy
  · intro p hp
    rcases List.mem_append.1 hp with hp | hp
    · exact h.val p hp
    · rw [List.mem_singleton.1 hp]; exact hv

/-- The matrix under conversion: the rows before `ib` are complete, `n` blocks of row `ib` are stored, the
rows behind are empty. -/
structure Conv (a : Spec.Mat R) (B0 B : EllB R) (ib n : Nat) (L : Nat → BRow R) : Prop where
  same : Same B0 B
  part : B.Part L
  nzs : B.nnzb.size = B0.NB
  nz : ∀ i, i < ib → B.nnzb.get i = B0.NB
  done : ∀ i, i < ib → ConvRow a B0.bsize.get i B0.NB (L i)
  cur : ConvRow a B0.bsize.get ib n (L ib)
  rest : ∀ i, ib < i → L i = []

/-- One block. -/
theorem Conv.wp_block {a : Spec.Mat R} {B0 B : EllB R} {ib n : Nat} {L : Nat → BRow R}
    (h : Conv a B0 B ib n L) (hsq : B0.MB = B0.NB) (hib : ib < B0.NB) (hn : n < B0.NB)
    (hcount : B.nnzb.get ib = B0.NB) {bs offs : Arr Nat} (hbs : bs.size = B0.NB)
    (hbg : bs.get = B0.bsize.get) (hos : offs.size = B0.NB)
    (hof : ∀ k, k < B0.NB → offs.get k = off B0.bsize.get k)
    {get : Nat → Nat → Res R}
    (hget : ∀ i j, i < off B0.bsize.get B0.NB → j < off B0.bsize.get B0.NB → get i j = .ok (a i j))
    (junk : Nat → R) :
    (convertBlock get junk bs offs ib n B).wp E (fun B' => B'.nnzb = B.nnzb ∧
      ∃ L', Conv a B0 B' ib (n + 1) L') := by
  have hNB : B.NB = B0.NB := h.same.NB
  have hMB : B.MB = B.NB := by rw [h.same.MB, hsq, hNB]
  have hlen : (L ib).length = n := h.cur.length
  unfold convertBlock
  rw [Arr.read_ok (by omega), Res.bind_ok, Arr.read_ok (by omega), Res.bind_ok]
  obtain ⟨C1, e1, s1, z1, p1, -⟩ := h.part.put (ib := ib) (by omega) (by omega) n
    (n := bs.get ib * bs.get n) (x := ⟨bs.get ib * bs.get n, junk⟩) (le_refl _)
  unfold putProd copyNew at e1
  rw [if_pos (le_refl _), Res.bind_ok, hlen, hMB] at e1
  cases e2 : B.alloc (ROWMAJOR ib n B.NB B.NB) ⟨bs.get ib * bs.get n, junk⟩ with
  | ok B1 =>
    rw [e2, Res.bind_ok] at e1
    rw [Res.bind_ok]
    have hB1 : B1.NB = B.NB := by
      unfold alloc at e2
      cases e3 : B.ptr.write (ROWMAJOR ib n B.NB B.NB) (some B.next) with
      | ok p => rw [e3] at e2; cases e2; rfl
      | error => rw [e3] at e2; cases e2
      | ub => rw [e3] at e2; cases e2
    rw [hB1, e1, Res.bind_ok]
    unfold convertRead
    rw [Arr.read_ok (by omega), Res.bind_ok, Arr.read_ok (by omega), Res.bind_ok, Res.wp_bind]
    have hfill := wp_fill (E := E) (n := bs.get ib) (m := bs.get n)
      (b := ⟨bs.get ib * bs.get n, junk⟩) rfl
      (f := fun ii jj => get (off B0.bsize.get ib + ii) (off B0.bsize.get n + jj))
      (g := fun ii jj => a (off B0.bsize.get ib + ii) (off B0.bsize.get n + jj))
      (fun ii jj h1 h2 => hget _ _ (off_lt hib (by rw [← hbg]; exact h1))
        (off_lt hn (by rw [← hbg]; exact h2)))
    have hoi : offs.read ib = .ok (off B0.bsize.get ib) := by
      rw [Arr.read_ok (by omega), hof ib hib]
    have hoj : offs.read n = .ok (off B0.bsize.get n) := by
      rw [Arr.read_ok (by omega), hof n hn]
    simp only [hoi, hoj, Res.bind_ok]
    refine Res.wp_mono hfill ?_
    rintro el ⟨hel1, hel2⟩
    rw [hbg] at hel1 hel2 p1
    have hb1 : C1.bsize = B0.bsize := s1.bsize.trans h.same.bsize
    obtain ⟨C2, y, e4, s2, z2, y1, y2, p2, -⟩ := p1.setBlock (ib := ib) (jb := n)
      (by rw [s1.NB]; omega) (by rw [s1.NB]; omega) (l := L ib)
      (x := ⟨B0.bsize.get ib * B0.bsize.get n, junk⟩) (by rw [upd_same])
      (by rw [h.cur.cols]; simp) (n := B0.NB)
      (by rw [z1, Arr.read_ok (by rw [h.nzs]; exact hib), hcount])
      (by rw [upd_same, List.length_append, hlen]; simp; omega) (by rw [hb1]) (el := el)
      (by rw [hb1]; exact le_of_eq hel1.symm)
    rw [hb1] at y1 y2
    rw [e4, Res.wp_ok]
    have eu : upd (upd L ib (L ib ++ [(n, (⟨B0.bsize.get ib * B0.bsize.get n, junk⟩ : Arr R))])) ib
        (L ib ++ [(n, y)]) = upd L ib (L ib ++ [(n, y)]) := by
      funext k
      by_cases hk : k = ib
      · subst hk; rw [upd_same, upd_same]
      · rw [upd_ne _ _ hk, upd_ne _ _ hk, upd_ne _ _ hk]
    rw [eu] at p2
    refine ⟨z2.trans z1, _, ⟨(h.same.trans s1).trans s2, p2, ?_, ?_, ?_, ?_, ?_⟩⟩
    · rw [z2, z1]; exact h.nzs
    · rw [z2, z1]; exact h.nz
    · intro i hi
      rw [upd_ne _ _ (by omega)]
      exact h.done i hi
    · rw [upd_same]
      refine h.cur.snoc y1 ?_
      intro ii jj h1 h2
      rw [y2 _ (addr_lt h1 h2)]
      exact hel2 ii jj h1 h2
    · intro i hi
      rw [upd_ne _ _ (by omega)]
      exact h.rest i hi
  | error => rw [e2] at e1; cases e1
  | ub => rw [e2] at e1; cases e1

section
variable [AddCommMonoid R]

/-- A row with all its blocks. -/
theorem ConvRow.rows {a : Spec.Mat R} {B : EllB R} {N : Nat} {L : Nat → BRow R} (hI : B.Is L)
    (hd : B.N = N) (hN : off B.bsize.get B.NB = N)
    (h : ∀ ib, ib < B.NB → ConvRow a B.bsize.get ib B.NB (L ib)) : B.Rows N L a := by
  refine ⟨hI, ?_, hd, hN, ?_⟩
  · intro ib hib
    refine ⟨by rw [(h ib hib).cols]; exact List.nodup_range, ?_, ?_⟩
    · intro p hp
      have : p.1 ∈ (L ib).map Prod.fst := List.mem_map.2 ⟨p, hp, rfl⟩
      rw [(h ib hib).cols] at this
      exact List.mem_range.1 this
    · intro p hp
      exact le_of_eq ((h ib hib).size p hp).symm
  · intro ib jb ii jj hib hjb hii hjj
    have : jb ∈ (L ib).map Prod.fst := by rw [(h ib hib).cols]; exact List.mem_range.2 hjb
    obtain ⟨⟨c, b⟩, hp, rfl⟩ := List.mem_map.1 this
    rw [val_of_mem (by rw [(h ib hib).cols]; exact List.nodup_range) hp]
    exact (h ib hib).val _ hp ii jj hii hjj

/-- `bml_convert`. -/
theorem wp_convert {g : Glob} {N M : Nat} (h : g.For N N) (hM : M ≤ N) {a : Spec.Mat R}
    {get : Nat → Nat → Res R} (hget : ∀ i j, i < N → j < N → get i j = .ok (a i j))
    (junk : Nat → R) :
    (convert g N M get junk).wp E (fun r => ∃ b L, getBlockSizes g N N = .ok (r.1, b) ∧
      r.1.Set N b ∧ r.2.Rows N L a ∧ r.2.Clean ∧ r.2.M = M ∧ r.2.NB = r.1.nb ∧ r.2.MB = r.1.nb ∧
      r.2.bsize.get = b.get ∧ ∀ ib jb, ib < r.2.NB → jb < r.2.NB → r.2.Has ib jb) := by
  obtain ⟨g', b, e, hs⟩ := wp_getBlockSizes h (le_refl _)
  have e1 := blockMatrix_eq (R := R) (g := g') (NB := g'.nb) (MB := g'.nb) (M := M) (bs := b) hs.nb
    hs.nb (by rw [hs.size]) hs.small (by rw [hs.sum]; exact hM) (by have := hs.mb; omega)
  rw [hs.sum] at e1
  unfold convert
  rw [e, Res.bind_ok]
  simp only
  rw [e1, Res.bind_ok]
  simp only
  rw [Res.wp_bind]
  have hNB : (empty N M g'.nb g'.nb ⟨g'.nb, b.get⟩ : EllB R).NB = g'.nb := rfl
  rw [hNB]
  refine Res.wp_mono (wp_offsets (by rw [hs.size]) hs.nb) ?_
  rintro offs ⟨ho1, ho2⟩
  rw [Res.wp_bind]
  set B0 : EllB R := empty N M g'.nb g'.nb ⟨g'.nb, b.get⟩ with hB0
  refine wp_loop' (fun ib (B : EllB R) => ∃ L, Conv a B0 B ib 0 L) ⟨fun _ => [], ?_⟩ ?_ ?_
  · exact ⟨Same.refl _, (show B0.Is (fun _ => []) from empty_is rfl).part, rfl, by intro i hi; omega, by intro i hi; omega,
      ConvRow.nil _ _ _, fun _ _ => rfl⟩
  · rintro ib hib B ⟨L, hB⟩
    unfold setNnzb
    rw [Arr.write_ok _ (by rw [hB.nzs]; exact hib), Res.bind_ok]
    simp only [Res.pure_eq, Res.bind_ok]
    have hBN : B.NB = g'.nb := hB.same.NB
    have hcnt : upd B.nnzb.get ib B.NB = upd B.nnzb.get ib g'.nb := by rw [hBN]
    rw [hcnt]
    show (loop B.NB _ _).wp E _
    rw [show ∀ (n : Nat) (s : EllB R), n = g'.nb → loop n s (convertBlock get junk b offs ib) =
      loop g'.nb s (convertBlock get junk b offs ib) from fun n s hn => by rw [hn]] <;> [skip; exact hBN]
    refine wp_loop' (fun n (B' : EllB R) => B'.nnzb = ⟨B.nnzb.size, upd B.nnzb.get ib g'.nb⟩ ∧
      ∃ L', Conv a B0 B' ib n L') ⟨rfl, L, ?_⟩ ?_ ?_
    · refine ⟨⟨hB.same.N, hB.same.M, hB.same.NB, hB.same.MB, hB.same.bsize⟩, hB.part.nnzb _, hB.nzs, ?_,
        hB.done, hB.cur, hB.rest⟩
      intro i hi
      simp only
      rw [upd_ne _ _ (by omega)]
      exact hB.nz i hi
    · rintro n hn B' ⟨hz, L', hB'⟩
      refine Res.wp_mono (hB'.wp_block rfl hib hn (by rw [hz]; simp only; rw [upd_same]; rfl) (bs := b)
        (offs := offs) hs.size rfl ho1 ho2 (get := get) ?_ junk) ?_
      · intro i j hi hj
        have : off B0.bsize.get B0.NB = N := hs.sum
        rw [this] at hi hj
        exact hget i j hi hj
      · rintro B2 ⟨hz2, hL2⟩
        exact ⟨hz2.trans hz, hL2⟩
    · rintro B' ⟨hz, L', hB'⟩
      refine ⟨L', hB'.same, hB'.part, hB'.nzs, ?_, ?_, ?_, fun i hi => hB'.rest i (by omega)⟩
      · intro i hi
        by_cases he : i = ib
        · subst he; rw [hz]; simp only; rw [upd_same]; rfl
        · exact hB'.nz i (by omega)
      · intro i hi
        by_cases he : i = ib
        · subst he; exact hB'.cur
        · exact hB'.done i (by omega)
      · rw [hB'.rest (ib + 1) (by omega)]
        exact ConvRow.nil _ _ _
  · rintro B ⟨L, hB⟩
    rw [Res.wp_pure]
    have hBN : B.NB = g'.nb := hB.same.NB
    have hI : B.Is L := hB.part.is (by rw [hB.nzs, hBN]; rfl) (fun ib hib => by
      rw [hBN] at hib
      rw [hB.nz ib hib, (hB.done ib hib).length])
    have hbg : B.bsize.get = b.get := by rw [hB.same.bsize]; rfl
    have hR : B.Rows N L a := by
      refine ConvRow.rows hI hB.same.N (by rw [hB.same.bsize, hBN]; exact hs.sum) ?_
      rw [hBN, hB.same.bsize]
      exact hB.done
    simp only
    refine ⟨b, L, rfl, hs, hR, ?_, hB.same.M, hBN, hB.same.MB, hbg, ?_⟩
    · intro ib jp h1 h2 h3
      rw [hBN] at h1
      have h4 := hB.nz ib h1
      have h5 : B.MB = g'.nb := hB.same.MB
      rw [h4] at h2
      have h6 : B0.NB = g'.nb := rfl
      omega
    · intro ib jb h1 h2
      rw [hR.has_iff h1, (hB.done ib (by omega)).cols]
      exact List.mem_range.2 (by rw [← hB.same.NB]; exact h2)

end

end EllB

end Bml
