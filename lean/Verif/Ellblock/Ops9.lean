import Verif.Ellblock.Model2
import Verif.Ellblock.Ops4
import Verif.Ellblock.Ops7

/-!
# Thresholds of block-ELLPACK matrices
-/

set_option linter.unusedSectionVars false

namespace Bml

namespace EllB

variable {R : Type} {E : Prop}

section
variable [CommRing R] {A : EllB R} {L : Nat → BRow R} {N : Nat} {a : Spec.Mat R}

/-- The thresholded block. -/
def thrB (big : R → Bool) (n : Nat) (b : Arr R) : Arr R :=
  ⟨b.size, fun k => if k < n ∧ big (b.get k) = false then 0 else b.get k⟩

theorem thrBlock_eq {big : R → Bool} {n m : Nat} {b : Arr R} (hb : n * m ≤ b.size) :
    thrBlock big n m b = .ok (thrB big (n * m) b) := by
  have key : (thrBlock big n m b).wp False (fun b' => b'.size = b.size ∧ ∀ k, b'.get k =
      if k < n * m ∧ big (b.get k) = false then 0 else b.get k) := by
    unfold thrBlock
    refine wp_loop2 (fun i j (b' : Arr R) => b'.size = b.size ∧ ∀ k, b'.get k =
      if k < i * m + j ∧ big (b.get k) = false then 0 else b.get k) ⟨rfl, ?_⟩ ?_ ?_ ?_
    · intro k
      rw [if_neg (by omega)]
    · rintro ii jj hi hj b' ⟨h1, h2⟩
      have ha : ii * m + jj < b'.size := by
        have := addr_lt hi hj
        omega
      simp only [ROWMAJOR]
      rw [Arr.read_ok ha, Res.bind_ok]
      have hx : b'.get (ii * m + jj) = b.get (ii * m + jj) := by
        rw [h2, if_neg (by omega)]
      rw [hx]
      by_cases hb' : big (b.get (ii * m + jj)) = false
      · rw [if_pos hb', Arr.wp_write]
        refine ⟨ha, h1, fun k => ?_⟩
        simp only
        by_cases hk : k = ii * m + jj
        · subst hk
          rw [upd_same, if_pos ⟨by omega, hb'⟩]
        · rw [upd_ne _ _ hk, h2]
          by_cases hc : k < ii * m + jj ∧ big (b.get k) = false
          · rw [if_pos hc, if_pos ⟨by omega, hc.2⟩]
          · rw [if_neg hc, if_neg (fun hc' => hc ⟨by omega, hc'.2⟩)]
      · rw [if_neg hb', Res.pure_eq, Res.wp_ok]
        refine ⟨h1, fun k => ?_⟩
        rw [h2]
        by_cases hk : k = ii * m + jj
        · subst hk
          rw [if_neg (by omega), if_neg (fun h => hb' h.2)]
        · by_cases hc : k < ii * m + jj ∧ big (b.get k) = false
          · rw [if_pos hc, if_pos ⟨by omega, hc.2⟩]
          · rw [if_neg hc, if_neg (fun hc' => hc ⟨by omega, hc'.2⟩)]
    · rintro ii b' hi ⟨h1, h2⟩
      refine ⟨h1, fun k => ?_⟩
      rw [h2, show (ii + 1) * m + 0 = ii * m + m by ring]
    · rintro b' ⟨h1, h2⟩
      exact ⟨h1, h2⟩
  obtain ⟨b', e, h1, h2⟩ := Res.wp_exists key
  rw [e]
  congr 1
  unfold thrB
  cases b' with
  | mk s f =>
    simp only at h1 h2
    subst h1
    congr 1
    funext k
    exact h2 k

/-- Whether some element of a block is above the threshold. -/
def hot (big : R → Bool) (n : Nat) (b : Arr R) : Bool :=
  decide (∃ k, k < n ∧ big (b.get k) = true)

theorem anyBig_hot {big : R → Bool} {b : Arr R} {n : Nat} (h : n ≤ b.size) :
    anyBig big b 0 n = .ok (hot big n b) := by
  obtain ⟨s, e, hs⟩ := anyBig_eq (big := big) (v := b) (o := 0) (n := n) (by omega)
  rw [e]
  congr 1
  simp only [Nat.zero_add] at hs
  unfold hot
  rw [Bool.eq_iff_iff, hs, decide_eq_true_iff]

/-- A thresholded block row. -/
def thrRow (big : R → Bool) (bs : Nat → Nat) (ib : Nat) (l : BRow R) : BRow R :=
  l.filterMap fun p => if hot big (bs ib * bs p.1) p.2 = true then
    some (p.1, thrB big (bs ib * bs p.1) p.2) else none

theorem thrRow_append (big : R → Bool) (bs : Nat → Nat) (ib : Nat) (l l' : BRow R) :
    thrRow big bs ib (l ++ l') = thrRow big bs ib l ++ thrRow big bs ib l' := by
  unfold thrRow; rw [List.filterMap_append]

theorem thrRow_one (big : R → Bool) (bs : Nat → Nat) (ib : Nat) (p : Nat × Arr R) :
    thrRow big bs ib [p] = if hot big (bs ib * bs p.1) p.2 = true then
      [(p.1, thrB big (bs ib * bs p.1) p.2)] else [] := by
  unfold thrRow
  by_cases h : hot big (bs ib * bs p.1) p.2 = true <;> simp [h]

theorem thrRow_len (big : R → Bool) (bs : Nat → Nat) (ib : Nat) (l : BRow R) :
    (thrRow big bs ib l).length ≤ l.length := List.length_filterMap_le _ _

theorem thrRow_mem {big : R → Bool} {bs : Nat → Nat} {ib : Nat} {l : BRow R} {q : Nat × Arr R}
    (h : q ∈ thrRow big bs ib l) : ∃ b, (q.1, b) ∈ l ∧ hot big (bs ib * bs q.1) b = true ∧
      q.2 = thrB big (bs ib * bs q.1) b := by
  unfold thrRow at h
  obtain ⟨p, hp, he⟩ := List.mem_filterMap.1 h
  by_cases hh : hot big (bs ib * bs p.1) p.2 = true
  · rw [if_pos hh] at he
    cases he
    exact ⟨p.2, hp, hh, rfl⟩
  · rw [if_neg hh] at he
    cases he

theorem thrRow_cols (big : R → Bool) (bs : Nat → Nat) (ib : Nat) (l : BRow R) :
    ((thrRow big bs ib l).map Prod.fst).Sublist (l.map Prod.fst) := by
  induction l with
  | nil => exact List.Sublist.refl _
  | cons p l ih =>
    rw [show p :: l = [p] ++ l from rfl, thrRow_append, thrRow_one]
    by_cases hh : hot big (bs ib * bs p.1) p.2 = true
    · rw [if_pos hh]; exact ih.cons_cons _
    · rw [if_neg hh]; exact ih.cons _

theorem GoodRow.thr {NB : Nat} {bs : Nat → Nat} {ib : Nat} {l : BRow R} (h : GoodRow NB bs ib l)
    (big : R → Bool) : GoodRow NB bs ib (thrRow big bs ib l) := by
  refine ⟨(thrRow_cols big bs ib l).nodup h.nodup, ?_, ?_⟩
  · intro q hq
    obtain ⟨b, hb, -⟩ := thrRow_mem hq
    exact h.lt (q.1, b) hb
  · intro q hq
    obtain ⟨b, hb, -, he⟩ := thrRow_mem hq
    rw [he]
    exact h.size (q.1, b) hb

/-- What a thresholded row holds. -/
theorem val_thr {NB : Nat} {bs : Nat → Nat} {ib : Nat} {l : BRow R} (h : GoodRow NB bs ib l)
    {big : R → Bool} (jb : Nat) {k : Nat} (hk : k < bs ib * bs jb) :
    val (thrRow big bs ib l) jb k = Spec.keep big (val l jb k) := by
  unfold Spec.keep
  by_cases hm : jb ∈ l.map Prod.fst
  · obtain ⟨⟨c, b⟩, hp, rfl⟩ := List.mem_map.1 hm
    simp only at hk ⊢
    rw [val_of_mem h.nodup hp]
    by_cases hh : hot big (bs ib * bs c) b = true
    · have hq : (c, thrB big (bs ib * bs c) b) ∈ thrRow big bs ib l := by
        unfold thrRow
        exact List.mem_filterMap.2 ⟨_, hp, by rw [if_pos hh]⟩
      rw [val_of_mem (h.thr big).nodup hq]
      unfold thrB
      simp only
      by_cases hb : big (b.get k) = true
      · rw [if_neg (by simp [hb]), if_pos hb]
      · rw [if_pos ⟨hk, by simpa using hb⟩, if_neg hb]
    · rw [val_of_not_mem]
      · have : ¬ big (b.get k) = true := by
          intro hb
          apply hh
          unfold hot
          rw [decide_eq_true_iff]
          exact ⟨k, hk, hb⟩
        rw [if_neg this]
      · intro hm'
        obtain ⟨q, hq, he⟩ := List.mem_map.1 hm'
        obtain ⟨b', hb', hh', -⟩ := thrRow_mem hq
        rw [he] at hb' hh'
        have := val_of_mem h.nodup hp
        obtain ⟨k1, hk1⟩ := List.mem_iff_getElem?.1 hp
        obtain ⟨k2, hk2⟩ := List.mem_iff_getElem?.1 hb'
        have e := slot_unique h.nodup hk1 hk2
        subst e
        rw [hk1] at hk2
        cases hk2
        exact hh hh'
  · rw [val_of_not_mem hm, val_of_not_mem]
    · simp
    · intro hm'
      exact hm ((thrRow_cols big bs ib l).mem hm')

/-- The matrix with thresholded rows. -/
theorem Rows.thr (h : A.Rows N L a) {A' : EllB R} (hs : Same A A') (big : R → Bool)
    {L' : Nat → BRow R} (hI : A'.Is L')
    (hL : ∀ ib, ib < A.NB → L' ib = thrRow big A.bsize.get ib (L ib)) :
    A'.Rows N L' (fun i j => Spec.keep big (a i j)) := by
  refine ⟨hI, ?_, hs.N.trans h.dim, by rw [hs.bsize, hs.NB]; exact h.N_eq, ?_⟩
  · rw [hs.NB, hs.bsize]
    intro ib hib
    rw [hL ib hib]
    exact (h.good ib hib).thr big
  · rw [hs.NB, hs.bsize]
    intro ib jb ii jj h1 h2 h3 h4
    rw [hL ib h1, val_thr (h.good ib h1) jb (addr_lt h3 h4), h.den ib jb ii jj h1 h2 h3 h4]

/-- Rows whose allocations have exactly the size of the block. -/
def trim (bs : Nat → Nat) (ib : Nat) (l : BRow R) : BRow R :=
  l.map fun p => (p.1, ⟨bs ib * bs p.1, p.2.get⟩)

theorem val_trim (bs : Nat → Nat) (ib : Nat) (l : BRow R) (jb k : Nat) :
    val (trim bs ib l) jb k = val l jb k := by
  unfold val trim
  rw [List.map_map]
  rfl

theorem trim_cols (bs : Nat → Nat) (ib : Nat) (l : BRow R) :
    (trim bs ib l).map Prod.fst = l.map Prod.fst := by
  unfold trim; rw [List.map_map]; rfl

theorem GoodRow.trim {NB : Nat} {bs : Nat → Nat} {ib : Nat} {l : BRow R}
    (h : GoodRow NB bs ib l) : GoodRow NB bs ib (trim bs ib l) := by
  refine ⟨by rw [trim_cols]; exact h.nodup, ?_, ?_⟩
  · intro q hq
    obtain ⟨p, hp, rfl⟩ := List.mem_map.1 hq
    exact h.lt p hp
  · intro q hq
    obtain ⟨p, hp, rfl⟩ := List.mem_map.1 hq
    exact le_refl _

theorem Rows.trimmed (h : A.Rows N L a) {A' : EllB R} (hs : Same A A') {L' : Nat → BRow R}
    (hI : A'.Is L') (big : R → Bool)
    (hL : ∀ ib, ib < A.NB → L' ib = trim A.bsize.get ib (thrRow big A.bsize.get ib (L ib))) :
    A'.Rows N L' (fun i j => Spec.keep big (a i j)) := by
  refine ⟨hI, ?_, hs.N.trans h.dim, by rw [hs.bsize, hs.NB]; exact h.N_eq, ?_⟩
  · rw [hs.NB, hs.bsize]
    intro ib hib
    rw [hL ib hib]
    exact ((h.good ib hib).thr big).trim
  · rw [hs.NB, hs.bsize]
    intro ib jb ii jj h1 h2 h3 h4
    rw [hL ib h1, val_trim, val_thr (h.good ib h1) jb (addr_lt h3 h4), h.den ib jb ii jj h1 h2 h3 h4]

theorem Arr.eta_size {α : Type} {x : Arr α} {n : Nat} (h : x.size = n) : (⟨n, x.get⟩ : Arr α) = x := by
  cases x; simp only at h; subst h; rfl

theorem Rows.wp_thresholdNew (h : A.Rows N L a) (hMB : 0 < A.MB) (hM : A.M ≤ N) (hNB : 0 < A.NB)
    (hbs : ∀ ib, ib < A.NB → A.bsize.get ib < 1000000) {g : Glob} (hg : g.mb ≠ 0)
    (big : R → Bool) :
    (thresholdNew g big A).wp E (fun gB => gB.1 = g ∧ ∃ L', gB.2.Rows N L'
      (fun i j => Spec.keep big (a i j)) ∧ gB.2.Clean ∧ Same A gB.2) := by
  unfold thresholdNew
  rw [blockMatrix_eq hNB hMB (by rw [h.is.bs_size]) hbs (by rw [h.N_eq]; exact hM) hg, Res.bind_ok]
  simp only
  rw [Arr.eta_size h.is.bs_size, h.N_eq]
  have hs0 : Same A (empty N A.M A.NB A.MB A.bsize : EllB R) := ⟨h.dim.symm, rfl, rfl, rfl, rfl⟩
  set F : Nat → BRow R := fun ib => trim A.bsize.get ib (thrRow big A.bsize.get ib (L ib)) with hF
  rw [Res.wp_bind]
  refine wp_loop' (fun n (B : EllB R) => Same A B ∧ B.Clean ∧
    B.Is (fun ib => if ib < n then F ib else []))
    ⟨hs0, empty_clean, by simpa using empty_is h.is.bs_size⟩ ?_ ?_
  · rintro ib hib B ⟨hs, hc, hI⟩
    rw [h.is.eachIdx_eq hib B _ (fun p B =>
      if hot big (A.bsize.get ib * A.bsize.get p.1) p.2 = true then do
        let n ← B.nnzb.read ib
        let b ← copyNew (A.bsize.get ib * A.bsize.get p.1) p.2
        let b ← thrBlock big (A.bsize.get ib) (A.bsize.get p.1) b
        let B ← B.alloc (ROWMAJOR ib n A.NB A.MB) b
        let B ← B.setIndex (ROWMAJOR ib n A.NB A.MB) p.1
        B.setNnzb ib (n + 1)
      else pure B)]
    · refine wp_forList (fun pre (B : EllB R) => Same A B ∧ B.Clean ∧ ∃ LB, B.Is LB ∧
        LB ib = trim A.bsize.get ib (thrRow big A.bsize.get ib pre) ∧
        ∀ ib', ib' ≠ ib → LB ib' = if ib' < ib then F ib' else []) ?_ ?_ ?_
      · exact ⟨hs, hc, _, hI, by simp [thrRow, trim], fun ib' _ => rfl⟩
      · rintro pre p post hsp B ⟨hs, hc, LB, hI, hL1, hL2⟩
        have hp : p ∈ L ib := by rw [hsp]; simp
        have hib' : ib < B.NB := by rw [hs.NB]; exact hib
        have hsz := (h.good ib hib).size p hp
        rw [thrRow_append, thrRow_one]
        by_cases hh : hot big (A.bsize.get ib * A.bsize.get p.1) p.2 = true
        · rw [if_pos hh, if_pos hh, hI.nnzb_eq hib', Res.bind_ok]
          have hlen : (LB ib).length < B.MB := by
            have h1 := thrRow_len big A.bsize.get ib pre
            have h2 := h.is.le ib hib
            have h3 : (L ib).length = pre.length + (post.length + 1) := by
              rw [hsp, List.length_append, List.length_cons]
            rw [hL1, hs.MB]
            unfold trim
            rw [List.length_map]
            omega
          unfold copyNew
          rw [if_pos hsz, Res.bind_ok, thrBlock_eq (le_refl _), Res.bind_ok]
          simp only [ROWMAJOR]
          rw [← hs.MB, hI.append_wp hib' hlen, Res.wp_ok]
          refine ⟨hs.trans (same_app _ _ _ _), hc.app hI hib' hlen _ _, _, hI.app hib' hlen _ _, ?_, ?_⟩
          · rw [upd_same, hL1]
            unfold trim
            rw [List.map_append]
            rfl
          · intro ib' hne
            rw [upd_ne _ _ hne]
            exact hL2 ib' hne
        · rw [if_neg hh, if_neg hh, Res.pure_eq, Res.wp_ok, List.append_nil]
          exact ⟨hs, hc, LB, hI, hL1, hL2⟩
      · rintro B ⟨hs, hc, LB, hI, hL1, hL2⟩
        refine ⟨hs, hc, ?_⟩
        have : (fun ib' => if ib' < ib + 1 then F ib' else []) = LB := by
          funext ib'
          by_cases h2 : ib' = ib
          · subst h2; rw [hL1]; simp [hF]
          · rw [hL2 ib' h2]
            by_cases h1 : ib' < ib
            · simp [h1, Nat.lt_succ_of_lt h1]
            · simp [h1, show ¬ ib' < ib + 1 by omega]
        rw [this]
        exact hI
    · intro jp jb b s hs
      have hjb := (h.good ib hib).lt _ (List.mem_of_getElem? hs)
      have hsz := (h.good ib hib).size _ (List.mem_of_getElem? hs)
      rw [h.is.block_eq hib hs, Res.bind_ok, h.is.bsize_eq hib, Res.bind_ok, h.is.bsize_eq hjb,
        Res.bind_ok, anyBig_hot hsz, Res.bind_ok]
  · rintro B ⟨hs, hc, hI⟩
    rw [Res.pure_eq, Res.wp_ok]
    refine ⟨rfl, _, h.trimmed hs hI big ?_, hc, hs⟩
    intro ib hib
    rw [if_pos hib]

/-! ## Removing a block -/

/-- The cells `lo …` moved down by one, up to `hi`. -/
def shifted {α : Type} (x : Arr α) (lo hi : Nat) : Arr α :=
  ⟨x.size, fun k => if lo ≤ k ∧ k + 1 < hi then x.get (k + 1) else x.get k⟩

/-- Removing a cell. -/
theorem Neat.shift {A A' : EllB R} {m : Nat} (h : A.Neat m) {lo hi x : Nat} (hl : lo < hi)
    (hh : hi ≤ A.ptr.size) (hx : A.ptr.get lo = some x) (hs : A'.ptr.size = A.ptr.size)
    (hp : ∀ k, A'.ptr.get k = upd (shifted A.ptr lo hi).get (hi - 1) none k)
    (hheap : A'.heap = upd A.heap x none) (hnext : A'.next = A.next) : A'.Neat m := by
  have key : ∀ k y, k < A'.ptr.size → A'.ptr.get k = some y → k ≠ hi - 1 ∧ ∃ k', k' < A.ptr.size ∧
      A.ptr.get k' = some y ∧ k' ≠ lo ∧ ((lo ≤ k ∧ k + 1 < hi ∧ k' = k + 1) ∨
        (¬ (lo ≤ k ∧ k + 1 < hi) ∧ k' = k)) := by
    intro k y hk hy
    rw [hp] at hy
    by_cases he : k = hi - 1
    · rw [he, upd_same] at hy; cases hy
    · rw [upd_ne _ _ he] at hy
      unfold shifted at hy
      simp only at hy
      refine ⟨he, ?_⟩
      by_cases hc : lo ≤ k ∧ k + 1 < hi
      · rw [if_pos hc] at hy
        exact ⟨k + 1, by omega, hy, by omega, Or.inl ⟨hc.1, hc.2, rfl⟩⟩
      · rw [if_neg hc] at hy
        refine ⟨k, by omega, hy, by omega, Or.inr ⟨hc, rfl⟩⟩
  refine ⟨?_, ?_, ?_⟩
  · intro k y hk hy
    obtain ⟨-, k', h1, h2, h3, -⟩ := key k y hk hy
    obtain ⟨b, h4, h5⟩ := h.live k' y h1 h2
    refine ⟨b, ?_, h5⟩
    have : y ≠ x := by
      rintro rfl
      exact h3 (h.own k' lo y h1 (by omega) h2 hx)
    rw [hheap, upd_ne _ _ this]
    exact h4
  · intro k1 k2 y hk1 hk2 hy1 hy2
    obtain ⟨h1, k1', h2, h3, h4, h5⟩ := key k1 y hk1 hy1
    obtain ⟨h1', k2', h2', h3', h4', h5'⟩ := key k2 y hk2 hy2
    have := h.own k1' k2' y h2 h2' h3 h3'
    omega
  · intro y hy
    rw [hnext] at hy
    rw [hheap]
    by_cases he : y = x
    · rw [he, upd_same]
    · rw [upd_ne _ _ he]; exact h.fresh y hy

theorem moveCells_eq (A : EllB R) {lo hi : Nat} (hlt : lo + 1 ≤ hi) (hx : hi ≤ A.indexb.size)
    (hp : hi ≤ A.ptr.size) :
    loopFrom (lo + 1) hi A (fun k A => A.moveCell k) =
      .ok { A with indexb := shifted A.indexb lo hi, ptr := shifted A.ptr lo hi } := by
  have key : (loopFrom (lo + 1) hi A (fun k A => A.moveCell k)).wp False (fun A' =>
      A' = { A with indexb := shifted A.indexb lo hi, ptr := shifted A.ptr lo hi }) := by
    refine wp_loopFrom (fun c (A' : EllB R) =>
      A' = { A with indexb := shifted A.indexb lo c, ptr := shifted A.ptr lo c }) hlt ?_ ?_
      (fun _ h => h)
    · have : ∀ {α : Type} (x : Arr α), shifted x lo (lo + 1) = x := by
        intro α x
        unfold shifted
        cases x
        congr 1
        funext k
        rw [if_neg (by omega)]
      rw [this, this]
    · rintro c h1 h2 A' rfl
      have hstep : ∀ {α : Type} (x : Arr α), hi ≤ x.size → ∀ s, (shifted x lo c).read c = .ok s →
          (shifted x lo c).write (c - 1) s = .ok (shifted x lo (c + 1)) := by
        intro α x hxs s hs
        rw [Arr.read_ok (show c < (shifted x lo c).size by unfold shifted; simp only; omega)] at hs
        cases hs
        rw [Arr.write_ok _ (show c - 1 < (shifted x lo c).size by unfold shifted; simp only; omega)]
        congr 1
        unfold shifted
        simp only
        congr 1
        funext k
        by_cases hk : k = c - 1
        · subst hk
          rw [upd_same, if_neg (by omega), if_pos (by omega), show c - 1 + 1 = c by omega]
        · rw [upd_ne _ _ hk]
          by_cases hc : lo ≤ k ∧ k + 1 < c
          · rw [if_pos hc, if_pos (by omega)]
          · rw [if_neg hc, if_neg (by omega)]
      unfold moveCell
      have r1 : (shifted A.indexb lo c).read c = .ok ((shifted A.indexb lo c).get c) :=
        Arr.read_ok (show c < A.indexb.size by omega)
      have r2 : (shifted A.ptr lo c).read c = .ok ((shifted A.ptr lo c).get c) :=
        Arr.read_ok (show c < A.ptr.size by omega)
      simp only
      rw [r1, Res.bind_ok, hstep _ hx _ r1, Res.bind_ok, r2, Res.bind_ok, hstep _ hp _ r2,
        Res.bind_ok, Res.pure_eq, Res.wp_ok]
  obtain ⟨A', e, h⟩ := Res.wp_exists key
  rw [e, h]

theorem Is.wp_freeBlock (h : A.Is L) {ib jp jb : Nat} {b : Arr R} (hi : ib < A.NB)
    (hn : ((L ib).map Prod.fst).Nodup) (hs : (L ib)[jp]? = some (jb, b)) :
    (A.freeBlock ib jb).wp E (fun A' => A'.Is (upd L ib ((L ib).eraseIdx jp)) ∧ Same A A' ∧
      (A.Clean → A'.Clean) ∧ ∀ m, A.Neat m → A'.Neat m) := by
  have hle := h.le ib hi
  obtain ⟨hjp, -⟩ := List.getElem?_eq_some_iff.1 hs
  obtain ⟨hix0, x, hx1, hx2⟩ := h.slot ib jp jb b hi hs
  unfold freeBlock
  rw [h.nnzb_eq hi, Res.bind_ok]
  rcases h.findBlk_cases hi jb with ⟨-, hnm⟩ | ⟨k, b', e, hs'⟩
  · exact absurd (List.mem_map.2 ⟨_, List.mem_of_getElem? hs, rfl⟩) hnm
  have hk : k = jp := slot_unique hn hs' hs
  subst hk
  set n := (L ib).length with hnl
  have hps : ib * A.MB + n ≤ A.NB * A.MB := by
    calc ib * A.MB + n ≤ ib * A.MB + A.MB := by omega
      _ = (ib + 1) * A.MB := by ring
      _ ≤ A.NB * A.MB := Nat.mul_le_mul_right _ hi
  rw [e, Res.bind_ok]
  simp only
  unfold freeAt
  rw [Arr.read_ok (h.addr hi (by omega)), Res.bind_ok, hx1]
  simp only [hx2, ROWMAJOR, Res.bind_ok]
  rw [moveCells_eq _ (by omega) (by simp only; rw [h.ix_size]; exact hps)
    (by simp only; rw [h.ptr_size]; exact hps), Res.bind_ok]
  simp only
  have hl1 : ib * A.MB + (n - 1) < A.ptr.size := h.addr hi (by omega)
  have hl2 : ib * A.MB + (n - 1) < A.indexb.size := h.addr' hi (by omega)
  rw [Arr.write_ok _ (show ib * A.MB + (n - 1) < (shifted A.ptr _ _).size from hl1), Res.bind_ok,
    Arr.write_ok _ (show ib * A.MB + (n - 1) < (shifted A.indexb _ _).size from hl2), Res.bind_ok,
    Res.pure_eq, Res.bind_ok]
  unfold setNnzb
  simp only
  rw [Arr.write_ok _ (by rw [h.nz_size]; exact hi), Res.bind_ok, Res.pure_eq, Res.wp_ok]
  -- where the cells of the new rows come from
  set sh : Nat → Nat → Nat := fun ib' jp' => if ib' = ib ∧ k ≤ jp' then jp' + 1 else jp' with hsh
  have hlen : ∀ ib', (upd L ib ((L ib).eraseIdx k) ib').length =
      if ib' = ib then n - 1 else (L ib').length := by
    intro ib'
    by_cases he : ib' = ib
    · subst he; rw [upd_same, if_pos rfl, List.length_eraseIdx_of_lt hjp]
    · rw [upd_ne _ _ he, if_neg he]
  have hget : ∀ ib' jp', (upd L ib ((L ib).eraseIdx k) ib')[jp']? = (L ib')[sh ib' jp']? := by
    intro ib' jp'
    by_cases he : ib' = ib
    · subst he
      rw [upd_same, List.getElem?_eraseIdx, hsh]
      simp only [true_and]
      by_cases hc : jp' < k
      · rw [if_pos hc, if_neg (by omega)]
      · rw [if_neg hc, if_pos (by omega)]
    · rw [upd_ne _ _ he, hsh]
      simp only [he, false_and, if_false]
  have hlt : ∀ ib' jp', ib' < A.NB → jp' < (upd L ib ((L ib).eraseIdx k) ib').length →
      sh ib' jp' < (L ib').length := by
    intro ib' jp' hib' hjp'
    rw [hlen] at hjp'
    simp only [hsh]
    by_cases he : ib' = ib
    · subst he
      rw [if_pos rfl] at hjp'
      split <;> omega
    · rw [if_neg he] at hjp'
      rw [if_neg (by tauto)]
      exact hjp'
  -- reading a moved cell
  have hcell : ∀ {α : Type} (X : Arr α) (v : α) ib' jp', ib' < A.NB →
      jp' < (upd L ib ((L ib).eraseIdx k) ib').length →
      upd (shifted X (ib * A.MB + k) (ib * A.MB + n)).get (ib * A.MB + (n - 1)) v
        (ib' * A.MB + jp') = X.get (ib' * A.MB + sh ib' jp') := by
    intro α X v ib' jp' hib' hjp'
    have hle' := h.le ib' hib'
    have hl := hlen ib'
    by_cases he : ib' = ib
    · subst he
      rw [if_pos rfl] at hl
      rw [upd_ne _ _ (by omega)]
      unfold shifted
      simp only [hsh, true_and]
      by_cases hc : k ≤ jp'
      · rw [if_pos (by omega), if_pos hc]; rfl
      · rw [if_neg (by omega), if_neg hc]
    · rw [if_neg he] at hl
      have hne : ∀ q, q < A.MB → ib' * A.MB + jp' ≠ ib * A.MB + q := by
        intro q hq hee
        exact he (addr_inj (by omega) hq hee).1
      rw [upd_ne _ _ (hne _ (by omega))]
      unfold shifted
      simp only [hsh]
      rw [if_neg (by tauto : ¬ (ib' = ib ∧ k ≤ jp')), if_neg]
      rintro ⟨c1, c2⟩
      exact hne (ib' * A.MB + jp' - ib * A.MB) (by omega) (by omega)
  refine ⟨⟨h.bs_size, h.nz_size, h.ix_size, h.ptr_size, ?_, ?_, ?_, ?_, ?_⟩,
    ⟨rfl, rfl, rfl, rfl, rfl⟩, ?_, fun m hne => hne.shift (lo := ib * A.MB + k)
      (hi := ib * A.MB + n) (by omega) (by rw [h.ptr_size]; exact hps) hx1 rfl (fun q => by
        rw [show ib * A.MB + n - 1 = ib * A.MB + (n - 1) by omega]) rfl rfl⟩
  · intro ib' hib'
    rw [hlen]
    show upd A.nnzb.get ib (n - 1) ib' = _
    by_cases he : ib' = ib
    · subst he; rw [upd_same, if_pos rfl]
    · rw [upd_ne _ _ he, if_neg he]; exact h.nz ib' hib'
  · intro ib' hib'
    rw [hlen]
    show _ ≤ A.MB
    have := h.le ib' hib'
    split <;> omega
  · intro ib' jp' jb' c hib' hc
    have hl : jp' < (upd L ib ((L ib).eraseIdx k) ib').length := (List.getElem?_eq_some_iff.1 hc).1
    rw [hget] at hc
    obtain ⟨g1, y, g2, g3⟩ := h.slot ib' _ jb' c hib' hc
    refine ⟨(hcell A.indexb _ ib' jp' hib' hl).trans g1, y, (hcell A.ptr _ ib' jp' hib' hl).trans g2, ?_⟩
    show upd A.heap x none y = some c
    rw [upd_ne]
    · exact g3
    · rintro rfl
      have := h.own ib' (sh ib' jp') ib k hib' (hlt ib' jp' hib' hl) hi hjp (g2.trans hx1.symm)
      obtain ⟨q1, q2⟩ := this
      subst q1
      simp only [hsh, true_and] at q2
      split at q2 <;> omega
  · intro ib1 jp1 ib2 jp2 hib1 hjp1 hib2 hjp2 he
    have e1 := hcell A.ptr none ib1 jp1 hib1 hjp1
    have e2 := hcell A.ptr none ib2 jp2 hib2 hjp2
    have he' : A.ptr.get (ib1 * A.MB + sh ib1 jp1) = A.ptr.get (ib2 * A.MB + sh ib2 jp2) :=
      e1.symm.trans (Eq.trans he e2)
    obtain ⟨q1, q2⟩ := h.own _ _ _ _ hib1 (hlt _ _ hib1 hjp1) hib2 (hlt _ _ hib2 hjp2) he'
    refine ⟨q1, ?_⟩
    subst q1
    simp only [hsh] at q2
    split at q2 <;> split at q2 <;> omega
  · intro y hy
    show upd A.heap x none y = none
    by_cases he : y = x
    · subst he; rw [upd_same]
    · rw [upd_ne _ _ he]; exact h.fresh y hy
  · intro hcl ib' jp' hib' h1 h2
    replace h1 : upd A.nnzb.get ib (n - 1) ib' ≤ jp' := h1
    replace h2 : jp' < A.MB := h2
    show upd (shifted A.ptr (ib * A.MB + k) (ib * A.MB + n)).get (ib * A.MB + (n - 1)) none
        (ib' * A.MB + jp') = none
    by_cases he : ib' * A.MB + jp' = ib * A.MB + (n - 1)
    · rw [he, upd_same]
    · rw [upd_ne _ _ he]
      unfold shifted
      simp only
      by_cases hb : ib' = ib
      · subst hb
        rw [upd_same] at h1
        rw [if_neg (by omega)]
        refine hcl ib' jp' hib' ?_ h2
        rw [h.nz ib' hi]; omega
      · rw [upd_ne _ _ hb] at h1
        rw [if_neg]
        · exact hcl ib' jp' hib' h1 h2
        · rintro ⟨c1, c2⟩
          exact hb (addr_inj h2 (show ib' * A.MB + jp' - ib * A.MB < A.MB by omega) (by omega)).1

/-- The loop over one row. -/
theorem wp_thresholdRow {big : R → Bool} {ib : Nat} {bs : Nat → Nat} (L : Nat → BRow R) :
    ∀ (rest pre : BRow R) (A : EllB R) (fuel : Nat), rest.length < fuel → ib < A.NB →
      A.Is (upd L ib (pre ++ rest)) → A.bsize.get = bs → GoodRow A.NB bs ib (pre ++ rest) →
      (thresholdRow big ib fuel pre.length A).wp E (fun A' => Same A A' ∧ (A.Clean → A'.Clean) ∧
        A'.Is (upd L ib (pre ++ thrRow big bs ib rest)) ∧ ∀ m, A.Neat m → A'.Neat m) := by
  intro rest
  induction rest with
  | nil =>
    intro pre A fuel hf hib hI hbs hg
    obtain ⟨fuel, rfl⟩ : ∃ f, fuel = f + 1 := ⟨fuel - 1, by omega⟩
    unfold thresholdRow
    rw [hI.nnzb_eq hib, Res.bind_ok, upd_same, List.append_nil, if_neg (lt_irrefl _), Res.pure_eq,
      Res.wp_ok]
    exact ⟨Same.refl A, id, hI, fun _ h => h⟩
  | cons p rest ih =>
    intro pre A fuel hf hib hI hbs hg
    obtain ⟨fuel, rfl⟩ : ∃ f, fuel = f + 1 := ⟨fuel - 1, by omega⟩
    rw [List.length_cons] at hf
    have hsl : (upd L ib (pre ++ p :: rest) ib)[pre.length]? = some (p.1, p.2) := by
      rw [upd_same]; simp
    have hp : p ∈ pre ++ p :: rest := by simp
    have hsz := hg.size p hp
    have hpb := hg.lt p hp
    unfold thresholdRow
    rw [hI.nnzb_eq hib, Res.bind_ok, if_pos (by rw [upd_same]; simp)]
    simp only [ROWMAJOR]
    rw [hI.index_eq hib hsl, Res.bind_ok, hI.block_eq hib hsl, Res.bind_ok, hI.bsize_eq hib,
      Res.bind_ok, hI.bsize_eq hpb, Res.bind_ok, hbs, anyBig_hot hsz, Res.bind_ok]
    rw [show p :: rest = [p] ++ rest from rfl, thrRow_append, thrRow_one]
    by_cases hh : hot big (bs ib * bs p.1) p.2 = true
    · rw [if_pos hh, if_pos hh, thrBlock_eq hsz, Res.bind_ok, hI.putBlock_eq hib hsl, Res.bind_ok]
      have hI' := hI.withBlock hib hsl (thrB big (bs ib * bs p.1) p.2)
      have hs' := same_withBlock A (ib * A.MB + pre.length) (thrB big (bs ib * bs p.1) p.2)
      have hset : (pre ++ p :: rest).set pre.length (p.1, thrB big (bs ib * bs p.1) p.2) =
          (pre ++ [(p.1, thrB big (bs ib * bs p.1) p.2)]) ++ rest := by
        rw [List.set_append_right _ _ (le_refl _), Nat.sub_self]
        simp
      have hupd : ∀ x y, upd (upd L ib x) ib y = upd L ib y := by
        intro x y; funext k
        by_cases hk : k = ib
        · subst hk; rw [upd_same, upd_same]
        · rw [upd_ne _ _ hk, upd_ne _ _ hk, upd_ne _ _ hk]
      rw [upd_same, hset, hupd] at hI'
      have hg' : GoodRow A.NB bs ib ((pre ++ [(p.1, thrB big (bs ib * bs p.1) p.2)]) ++ rest) := by
        rw [← hset]
        exact hg.set (b := p.2) (by simp) rfl
      have := ih (pre ++ [(p.1, thrB big (bs ib * bs p.1) p.2)]) _ fuel (by omega)
        (by rw [hs'.NB]; exact hib) hI' (by rw [hs'.bsize]; exact hbs) (by rw [hs'.NB]; exact hg')
      rw [List.length_append, List.length_singleton] at this
      refine Res.wp_mono this ?_
      rintro A' ⟨q1, q2, q3, q4⟩
      refine ⟨hs'.trans q1, fun hc => q2 (hc.withBlock _ _), ?_, fun m hne => q4 m ?_⟩
      · rw [List.append_assoc] at q3
        exact q3
      · obtain ⟨-, x, h3, h4⟩ := hI.slot ib _ _ _ hib hsl
        have hl := hI.addr hib (hI.lt_of_slot hib hsl)
        obtain ⟨c, h5, h6⟩ := hne.live _ x hl h3
        rw [h4] at h5
        cases h5
        exact hne.withBlock hl h6
    · rw [if_neg hh, if_neg hh, Res.wp_bind]
      refine Res.wp_mono (hI.wp_freeBlock hib (by rw [upd_same]; exact hg.nodup) hsl) ?_
      rintro A' ⟨q1, q2, q3, q4⟩
      have herase : (pre ++ p :: rest).eraseIdx pre.length = pre ++ rest := by
        rw [List.eraseIdx_append_of_length_le (le_refl _), Nat.sub_self]
        simp
      have hupd : ∀ x y, upd (upd L ib x) ib y = upd L ib y := by
        intro x y; funext k
        by_cases hk : k = ib
        · subst hk; rw [upd_same, upd_same]
        · rw [upd_ne _ _ hk, upd_ne _ _ hk, upd_ne _ _ hk]
      rw [upd_same, herase, hupd] at q1
      have hg' : GoodRow A.NB bs ib (pre ++ rest) := by
        have hsub : (pre ++ rest).Sublist (pre ++ p :: rest) :=
          List.Sublist.append (List.Sublist.refl _) (List.sublist_cons_self _ _)
        exact ⟨(hsub.map _).nodup hg.nodup, fun q hq => hg.lt q (hsub.mem hq),
          fun q hq => hg.size q (hsub.mem hq)⟩
      refine Res.wp_mono (ih pre A' fuel (by omega) (by rw [q2.NB]; exact hib) q1
        (by rw [q2.bsize]; exact hbs) (by rw [q2.NB]; exact hg')) ?_
      rintro A'' ⟨r1, r2, r3, r4⟩
      exact ⟨q2.trans r1, fun hc => r2 (q3 hc), by simpa using r3, fun m hne => r4 m (q4 m hne)⟩

theorem Rows.wp_threshold (h : A.Rows N L a) (big : R → Bool) :
    (A.threshold big).wp E (fun A' => (∃ L', A'.Rows N L' (fun i j => Spec.keep big (a i j)) ∧
      ∀ ib, ib < A.NB → L' ib = thrRow big A.bsize.get ib (L ib)) ∧ Same A A' ∧
        (A.Clean → A'.Clean) ∧ ∀ m, A.Neat m → A'.Neat m) := by
  unfold threshold
  refine wp_loop' (fun n (A' : EllB R) => Same A A' ∧ (A.Clean → A'.Clean) ∧
    (∀ m, A.Neat m → A'.Neat m) ∧ ∃ LB, A'.Is LB ∧
    ∀ ib, LB ib = if ib < n then thrRow big A.bsize.get ib (L ib) else L ib)
    ⟨Same.refl A, id, fun _ h => h, L, h.is, fun _ => rfl⟩ ?_ ?_
  · rintro ib hib A' ⟨hs, hc, hne, LB, hI, hL⟩
    have hib' : ib < A'.NB := by rw [hs.NB]; exact hib
    have hLib : LB ib = L ib := by rw [hL, if_neg (lt_irrefl _)]
    rw [hI.nnzb_eq hib', Res.bind_ok]
    have hu : upd LB ib ([] ++ L ib) = LB := by
      funext k
      by_cases hk : k = ib
      · subst hk; rw [upd_same, hLib]; rfl
      · rw [upd_ne _ _ hk]
    have := wp_thresholdRow (E := E) (big := big) (ib := ib) (bs := A.bsize.get) LB (L ib) [] A'
      ((LB ib).length + 1) (by rw [hLib]; omega) hib' (by rw [hu]; exact hI)
      (by rw [hs.bsize]) (by rw [hs.NB]; exact h.good ib hib)
    refine Res.wp_mono this ?_
    rintro A'' ⟨q1, q2, q3, q4⟩
    refine ⟨hs.trans q1, fun c => q2 (hc c), fun m h => q4 m (hne m h), _, q3, fun k => ?_⟩
    by_cases hk : k = ib
    · subst hk; rw [upd_same, if_pos (by omega)]; rfl
    · rw [upd_ne _ _ hk, hL]
      by_cases hk' : k < ib
      · rw [if_pos hk', if_pos (by omega)]
      · rw [if_neg hk', if_neg (by omega)]
  · rintro A' ⟨hs, hc, hne, LB, hI, hL⟩
    have hL' : ∀ ib, ib < A.NB → LB ib = thrRow big A.bsize.get ib (L ib) := fun ib hib => by
      rw [hL, if_pos hib]
    exact ⟨⟨LB, h.thr hs big hI hL', hL'⟩, hs, hc, hne⟩

end

end EllB

end Bml
