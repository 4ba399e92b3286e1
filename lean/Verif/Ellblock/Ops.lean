import Verif.Ellblock.Rep

/-!
# Block-ELLPACK: element, row and diagonal access
-/

set_option linter.unusedSectionVars false

namespace Bml

namespace EllB

variable {R : Type} {E : Prop}

/-- Same dimensions and block sizes. -/
structure Same (A A' : EllB R) : Prop where
  N : A'.N = A.N
  M : A'.M = A.M
  NB : A'.NB = A.NB
  MB : A'.MB = A.MB
  bsize : A'.bsize = A.bsize

theorem Same.refl (A : EllB R) : Same A A := ⟨rfl, rfl, rfl, rfl, rfl⟩

theorem Same.trans {A B C : EllB R} (h : Same A B) (h' : Same B C) : Same A C :=
  ⟨h'.N.trans h.N, h'.M.trans h.M, h'.NB.trans h.NB, h'.MB.trans h.MB, h'.bsize.trans h.bsize⟩

theorem same_withBlock (A : EllB R) (ind : Nat) (b : Arr R) : Same A (A.withBlock ind b) := by
  obtain ⟨h1, h2, h3, h4, h5, -⟩ := withBlock_frame A ind b
  exact ⟨h1, h2, h3, h4, h5⟩

theorem same_app (A : EllB R) (ib jb : Nat) (b : Arr R) : Same A (A.app ib jb b) :=
  ⟨rfl, rfl, rfl, rfl, rfl⟩

section
variable {A : EllB R} {L : Nat → BRow R}

theorem slot_unique {l : BRow R} (hn : (l.map Prod.fst).Nodup) {k k' jb : Nat} {b b' : Arr R}
    (h : l[k]? = some (jb, b)) (h' : l[k']? = some (jb, b')) : k = k' := by
  have hl : ∀ (k : Nat) (x : Nat × Arr R), l[k]? = some x → (l.map Prod.fst)[k]? = some x.1 := by
    intro k x hk; rw [List.getElem?_map, hk]; rfl
  obtain ⟨h1, -⟩ := List.getElem?_eq_some_iff.1 (hl k _ h)
  exact (List.getElem?_inj h1 hn).1 ((hl k _ h).trans (hl k' _ h').symm)

theorem Is.writeMatching_none (h : A.Is L) {ib jb : Nat} (hi : ib < A.NB)
    (hn : jb ∉ (L ib).map Prod.fst) (k : Nat) (v : R) (c : Bool) :
    A.writeMatching ib jb k v c = .ok (A, false) := by
  unfold writeMatching
  rw [h.nnzb_eq hi, Res.bind_ok]
  obtain ⟨s, e, hs⟩ := Res.wp_exists (wp_loop' (E := False) (n := (L ib).length)
    (s := ((A, false) : EllB R × Bool)) (Q := fun s => s = (A, false)) (f := fun jp s => do
      let c' ← s.1.indexb.read (ROWMAJOR ib jp A.NB A.MB)
      if c' = jb then do
        let b ← if c then s.1.blockAssert (ROWMAJOR ib jp A.NB A.MB)
          else s.1.block (ROWMAJOR ib jp A.NB A.MB)
        let b ← b.write k v
        let A ← s.1.putBlock (ROWMAJOR ib jp A.NB A.MB) b
        pure (A, true)
      else pure s) (fun _ s => s = (A, false)) rfl (by
      rintro jp hjp s rfl
      obtain ⟨⟨c', b⟩, hx⟩ : ∃ x, (L ib)[jp]? = some x := ⟨_, List.getElem?_eq_getElem hjp⟩
      simp only [ROWMAJOR]
      rw [h.index_eq hi hx, Res.bind_ok, if_neg]
      · rfl
      · rintro rfl
        exact hn (List.mem_map.2 ⟨_, List.mem_of_getElem? hx, rfl⟩)) (fun _ h => h))
  rw [hs] at e
  exact e

theorem Is.writeMatching_some (h : A.Is L) {ib jb k0 : Nat} {b : Arr R} (hi : ib < A.NB)
    (hn : ((L ib).map Prod.fst).Nodup) (hs : (L ib)[k0]? = some (jb, b)) {k : Nat}
    (hk : k < b.size) (v : R) (c : Bool) :
    A.writeMatching ib jb k v c =
      .ok (A.withBlock (ib * A.MB + k0) ⟨b.size, upd b.get k v⟩, true) := by
  unfold writeMatching
  rw [h.nnzb_eq hi, Res.bind_ok]
  have hw := h.withBlock hi hs (⟨b.size, upd b.get k v⟩ : Arr R)
  obtain ⟨-, -, f3, f4, -⟩ := withBlock_frame A (ib * A.MB + k0) (⟨b.size, upd b.get k v⟩ : Arr R)
  obtain ⟨hlt, -⟩ := List.getElem?_eq_some_iff.1 hs
  obtain ⟨s, e, hs⟩ := Res.wp_exists (wp_loop' (E := False) (n := (L ib).length)
    (s := ((A, false) : EllB R × Bool))
    (Q := fun s => s = (A.withBlock (ib * A.MB + k0) ⟨b.size, upd b.get k v⟩, true))
    (f := fun jp s => do
      let c' ← s.1.indexb.read (ROWMAJOR ib jp A.NB A.MB)
      if c' = jb then do
        let b ← if c then s.1.blockAssert (ROWMAJOR ib jp A.NB A.MB)
          else s.1.block (ROWMAJOR ib jp A.NB A.MB)
        let b ← b.write k v
        let A ← s.1.putBlock (ROWMAJOR ib jp A.NB A.MB) b
        pure (A, true)
      else pure s) (fun n s => s = if k0 < n then
        (A.withBlock (ib * A.MB + k0) ⟨b.size, upd b.get k v⟩, true) else (A, false))
      (by rw [if_neg (by omega)]) (by
      rintro jp hjp s rfl
      obtain ⟨⟨c', b'⟩, hx⟩ : ∃ x, (L ib)[jp]? = some x := ⟨_, List.getElem?_eq_getElem hjp⟩
      simp only [ROWMAJOR]
      rcases Nat.lt_trichotomy k0 jp with hlt' | rfl | hgt
      · rw [if_pos hlt', if_pos (show k0 < jp + 1 by omega)]
        have hx' : (upd L ib ((L ib).set k0 (jb, ⟨b.size, upd b.get k v⟩)) ib)[jp]? =
            some (c', b') := by
          rw [upd_same, List.getElem?_set_ne (by omega), hx]
        have := hw.index_eq (by rw [f3]; exact hi) hx'
        rw [f4] at this
        rw [this, Res.bind_ok, if_neg]
        · rfl
        · rintro rfl
          have := slot_unique hn hs hx
          omega
      · rw [hs] at hx
        cases hx
        rw [if_neg (show ¬ k0 < k0 by omega), if_pos (show k0 < k0 + 1 by omega)]
        simp only
        rw [h.index_eq hi hs, Res.bind_ok, if_pos rfl]
        rw [h.blockAssert_eq hi hs, h.block_eq hi hs]
        simp only [Res.bind_ok]
        rw [ite_self, Arr.write_ok v hk, Res.bind_ok, h.putBlock_eq hi hs, Res.bind_ok]
        rfl
      · rw [if_neg (show ¬ k0 < jp by omega), if_neg (show ¬ k0 < jp + 1 by omega)]
        simp only
        rw [h.index_eq hi hx, Res.bind_ok, if_neg]
        · rfl
        · rintro rfl
          have := slot_unique hn hs hx
          omega) (by
      intro s hs'
      rw [hs', if_pos hlt]))
  rw [hs] at e
  exact e

end

section
variable [AddCommMonoid R] {A : EllB R} {L : Nat → BRow R} {N : Nat} {a : Spec.Mat R}

theorem GoodRow.nodup' {NB ib : Nat} {bs : Nat → Nat} {l : BRow R} (h : GoodRow NB bs ib l) :
    (l.map Prod.fst).Nodup := h.nodup

theorem set_fst (l : BRow R) {k jb : Nat} {b b' : Arr R} (h : l[k]? = some (jb, b)) :
    (l.set k (jb, b')).map Prod.fst = l.map Prod.fst := by
  apply List.ext_getElem?
  intro n
  rw [List.getElem?_map, List.getElem?_map, List.getElem?_set]
  split
  · next he =>
    subst he
    rw [h]
    split
    · rfl
    · next hc =>
      obtain ⟨h1, -⟩ := List.getElem?_eq_some_iff.1 h
      exact absurd h1 hc
  · rfl

theorem mem_set {l : BRow R} {k jb : Nat} {b' : Arr R} {p : Nat × Arr R}
    (h : p ∈ l.set k (jb, b')) : p ∈ l ∨ p = (jb, b') := by
  rcases List.mem_or_eq_of_mem_set h with h | h
  · exact Or.inl h
  · exact Or.inr h

/-- Replacing the content of a block by one of the same size. -/
theorem GoodRow.set {NB ib : Nat} {bs : Nat → Nat} {l : BRow R} (h : GoodRow NB bs ib l) {k jb : Nat}
    {b b' : Arr R} (hs : l[k]? = some (jb, b)) (hb : b'.size = b.size) :
    GoodRow NB bs ib (l.set k (jb, b')) := by
  have hm := List.mem_of_getElem? hs
  refine ⟨by rw [set_fst l hs]; exact h.nodup, ?_, ?_⟩
  · intro p hp
    rcases mem_set hp with hp | rfl
    · exact h.lt p hp
    · exact h.lt (jb, b) hm
  · intro p hp
    rcases mem_set hp with hp | rfl
    · exact h.size p hp
    · rw [hb]; exact h.size (jb, b) hm

theorem val_set {l : BRow R} (hn : (l.map Prod.fst).Nodup) {k0 jb : Nat} {b b' : Arr R}
    (hs : l[k0]? = some (jb, b)) (jb' k : Nat) :
    val (l.set k0 (jb, b')) jb' k = if jb' = jb then b'.get k else val l jb' k := by
  have hn' : ((l.set k0 (jb, b')).map Prod.fst).Nodup := by rw [set_fst l hs]; exact hn
  obtain ⟨hlt, -⟩ := List.getElem?_eq_some_iff.1 hs
  split
  · next he =>
    subst he
    exact val_of_mem hn' (List.mem_of_getElem? (List.getElem?_set_self hlt)) k
  · next he =>
    by_cases hm : jb' ∈ l.map Prod.fst
    · obtain ⟨⟨c, d⟩, hp, rfl⟩ := List.mem_map.1 hm
      rw [val_of_mem hn hp]
      obtain ⟨m, hm'⟩ := List.mem_iff_getElem?.1 hp
      refine val_of_mem hn' (List.mem_of_getElem? (i := m) ?_) k
      rw [List.getElem?_set_ne, hm']
      rintro rfl
      rw [hs] at hm'
      cases hm'
      exact he rfl
    · rw [val_of_not_mem hm, val_of_not_mem]
      rw [set_fst l hs]; exact hm

theorem GoodRow.append {NB ib : Nat} {bs : Nat → Nat} {l : BRow R} (h : GoodRow NB bs ib l)
    {jb : Nat} {b : Arr R} (hjb : jb < NB) (hn : jb ∉ l.map Prod.fst)
    (hb : b.size = bs ib * bs jb) : GoodRow NB bs ib (l ++ [(jb, b)]) := by
  refine ⟨?_, ?_, ?_⟩
  · rw [List.map_append, List.nodup_append]
    refine ⟨h.nodup, by simp, ?_⟩
    intro x hx y hy
    simp at hy
    subst hy
    rintro rfl
    exact hn hx
  · intro p hp
    rcases List.mem_append.1 hp with hp | hp
    · exact h.lt p hp
    · simp at hp; subst hp; exact hjb
  · intro p hp
    rcases List.mem_append.1 hp with hp | hp
    · exact h.size p hp
    · simp at hp; subst hp; exact hb.ge

/-- The rows of a matrix all of whose changes are in one block row. -/
theorem Rows.update (h : A.Rows N L a) {A' : EllB R} {ib : Nat} {l : BRow R} {a' : Spec.Mat R}
    (hsame : Same A A') (his : A'.Is (upd L ib l))
    (hg : ib < A.NB → GoodRow A.NB A.bsize.get ib l)
    (hden : ∀ jb ii jj, ib < A.NB → jb < A.NB → ii < A.bsize.get ib → jj < A.bsize.get jb →
      val l jb (ii * A.bsize.get jb + jj) =
        a' (off A.bsize.get ib + ii) (off A.bsize.get jb + jj))
    (hother : ∀ i j, i < N → j < N → (∀ ii, ii < A.bsize.get ib → i ≠ off A.bsize.get ib + ii) →
      a' i j = a i j) : A'.Rows N (upd L ib l) a' := by
  obtain ⟨s1, s2, s3, s4, s5⟩ := hsame
  refine ⟨his, ?_, s1.trans h.dim, by rw [s5, s3]; exact h.N_eq, ?_⟩
  · intro ib' hi'
    rw [s3] at hi'
    rw [s3, s5]
    by_cases he : ib' = ib
    · subst he; rw [upd_same]; exact hg hi'
    · rw [upd_ne _ _ he]; exact h.good ib' hi'
  · intro ib' jb ii jj h1 h2 h3 h4
    rw [s3] at h1 h2
    rw [s5] at h3 h4 ⊢
    by_cases he : ib' = ib
    · subst he; rw [upd_same]; exact hden jb ii jj h1 h2 h3 h4
    · rw [upd_ne _ _ he, h.den ib' jb ii jj h1 h2 h3 h4]
      have hi := off_lt h1 h3
      have hj := off_lt h2 h4
      rw [h.N_eq] at hi hj
      refine (hother _ _ hi hj ?_).symm
      intro ii' hii' heq
      exact he (off_inj h3 hii' heq).1

/-- Writing one element of a stored block. -/
theorem Rows.write_stored (h : A.Rows N L a) {ib jb k0 ii jj : Nat} {b : Arr R} (hi : ib < A.NB)
    (hj : jb < A.NB) (hii : ii < A.bsize.get ib) (hjj : jj < A.bsize.get jb)
    (hs : (L ib)[k0]? = some (jb, b)) (v : R) :
    (A.withBlock (ib * A.MB + k0) ⟨b.size, upd b.get (ii * A.bsize.get jb + jj) v⟩).Rows N
      (upd L ib ((L ib).set k0 (jb, ⟨b.size, upd b.get (ii * A.bsize.get jb + jj) v⟩)))
      (Spec.set a (off A.bsize.get ib + ii) (off A.bsize.get jb + jj) v) := by
  have hn := (h.good ib hi).nodup
  refine h.update (same_withBlock _ _ _) (h.is.withBlock hi hs _)
    (fun _ => (h.good ib hi).set hs rfl) ?_ ?_
  · intro jb' ii' jj' _ hjb' hii' hjj'
    rw [val_set hn hs]
    unfold Spec.set
    by_cases he : jb' = jb
    · subst he
      rw [if_pos rfl]
      show upd b.get _ v _ = _
      by_cases hpos : ii' = ii ∧ jj' = jj
      · obtain ⟨rfl, rfl⟩ := hpos
        rw [upd_same, if_pos ⟨rfl, rfl⟩]
      · have hne : ii' * A.bsize.get jb' + jj' ≠ ii * A.bsize.get jb' + jj := by
          intro he
          exact hpos (addr_inj hjj' hjj he)
        rw [upd_ne _ _ hne, ← val_of_mem hn (List.mem_of_getElem? hs),
          h.den ib jb' ii' jj' hi hjb' hii' hjj', if_neg]
        rintro ⟨e1, e2⟩
        exact hpos ⟨by omega, by omega⟩
    · rw [if_neg he, h.den ib jb' ii' jj' hi hjb' hii' hjj', if_neg]
      rintro ⟨-, e2⟩
      exact he (off_inj hjj' hjj e2).1
  · intro i j _ _ hne
    unfold Spec.set
    rw [if_neg]
    rintro ⟨e1, -⟩
    exact hne ii hii e1

/-- Appending a block with one nonzero element. -/
theorem Rows.write_append (h : A.Rows N L a) {ib jb ii jj : Nat} {b : Arr R} (hi : ib < A.NB)
    (hj : jb < A.NB) (hii : ii < A.bsize.get ib) (hjj : jj < A.bsize.get jb)
    (hn : jb ∉ (L ib).map Prod.fst) (hcap : (L ib).length < A.MB) (v : R)
    (hb : b.size = A.bsize.get ib * A.bsize.get jb)
    (hbv : ∀ k, b.get k = if k = ii * A.bsize.get jb + jj then v else 0) :
    (A.app ib jb b).Rows N (upd L ib (L ib ++ [(jb, b)]))
      (Spec.set a (off A.bsize.get ib + ii) (off A.bsize.get jb + jj) v) := by
  refine h.update (same_app _ _ _ _) (h.is.app hi hcap _ _)
    (fun _ => (h.good ib hi).append hj hn hb) ?_ ?_
  · intro jb' ii' jj' _ hjb' hii' hjj'
    rw [val_append]
    simp only [val_cons, val_nil, add_zero]
    unfold Spec.set
    by_cases he : jb' = jb
    · subst he
      rw [if_pos rfl, val_of_not_mem hn, zero_add, hbv]
      by_cases hpos : ii' = ii ∧ jj' = jj
      · obtain ⟨rfl, rfl⟩ := hpos
        rw [if_pos rfl, if_pos ⟨rfl, rfl⟩]
      · have hne : ii' * A.bsize.get jb' + jj' ≠ ii * A.bsize.get jb' + jj := by
          intro he
          exact hpos (addr_inj hjj' hjj he)
        rw [if_neg hne, if_neg (by rintro ⟨e1, e2⟩; exact hpos ⟨by omega, by omega⟩),
          ← h.den ib jb' ii' jj' hi hjb' hii' hjj', val_of_not_mem hn]
    · rw [if_neg (fun e => he e.symm), add_zero, h.den ib jb' ii' jj' hi hjb' hii' hjj', if_neg]
      rintro ⟨-, e2⟩
      exact he (off_inj hjj' hjj e2).1
  · intro i j _ _ hne
    unfold Spec.set
    rw [if_neg]
    rintro ⟨e1, -⟩
    exact hne ii hii e1

theorem unitBlock_eq {n k : Nat} (hk : k < n) (v : R) :
    unitBlock n k v = .ok (⟨n, upd (fun _ => 0) k v⟩ : Arr R) := Arr.write_ok v hk

theorem unitBlock_get (n k : Nat) (v : R) (k' : Nat) :
    (⟨n, upd (fun _ => 0) k v⟩ : Arr R).get k' = if k' = k then v else 0 := rfl

/-- The result of an element write: what it represents, what it keeps. -/
structure Wrote (A A' : EllB R) (N ib jb : Nat) (L L' : Nat → BRow R) (a : Spec.Mat R) : Prop where
  rows : A'.Rows N L' a
  same : Same A A'
  clean : A.Clean → A'.Clean
  other : ∀ ib', ib' ≠ ib → L' ib' = L ib'
  cols : (L' ib).map Prod.fst =
    if jb ∈ (L ib).map Prod.fst then (L ib).map Prod.fst else (L ib).map Prod.fst ++ [jb]

theorem Rows.wrote_stored (h : A.Rows N L a) {ib jb k0 ii jj : Nat} {b : Arr R} (hi : ib < A.NB)
    (hj : jb < A.NB) (hii : ii < A.bsize.get ib) (hjj : jj < A.bsize.get jb)
    (hs : (L ib)[k0]? = some (jb, b)) (v : R) :
    Wrote A (A.withBlock (ib * A.MB + k0) ⟨b.size, upd b.get (ii * A.bsize.get jb + jj) v⟩) N ib jb
      L (upd L ib ((L ib).set k0 (jb, ⟨b.size, upd b.get (ii * A.bsize.get jb + jj) v⟩)))
      (Spec.set a (off A.bsize.get ib + ii) (off A.bsize.get jb + jj) v) := by
  refine ⟨h.write_stored hi hj hii hjj hs v, same_withBlock _ _ _, fun hc => hc.withBlock _ _,
    fun ib' hne => upd_ne _ _ hne, ?_⟩
  rw [upd_same, set_fst _ hs, if_pos]
  exact List.mem_map.2 ⟨_, List.mem_of_getElem? hs, rfl⟩

theorem Rows.wrote_append (h : A.Rows N L a) {ib jb ii jj : Nat} {b : Arr R} (hi : ib < A.NB)
    (hj : jb < A.NB) (hii : ii < A.bsize.get ib) (hjj : jj < A.bsize.get jb)
    (hn : jb ∉ (L ib).map Prod.fst) (hcap : (L ib).length < A.MB) (v : R)
    (hb : b.size = A.bsize.get ib * A.bsize.get jb)
    (hbv : ∀ k, b.get k = if k = ii * A.bsize.get jb + jj then v else 0) :
    Wrote A (A.app ib jb b) N ib jb L (upd L ib (L ib ++ [(jb, b)]))
      (Spec.set a (off A.bsize.get ib + ii) (off A.bsize.get jb + jj) v) := by
  refine ⟨h.write_append hi hj hii hjj hn hcap v hb hbv, same_app _ _ _ _,
    fun hc => hc.app h.is hi hcap _ _, fun ib' hne => upd_ne _ _ hne, ?_⟩
  rw [upd_same, if_neg hn]
  simp

/-- `bml_set_element` at a block address. -/
theorem Rows.wp_setElement (h : A.Rows N L a) {ib jb ii jj : Nat} (hi : ib < A.NB)
    (hj : jb < A.NB) (hii : ii < A.bsize.get ib) (hjj : jj < A.bsize.get jb) (v : R) :
    (A.setElement (off A.bsize.get ib + ii) (off A.bsize.get jb + jj) v).wp
      (jb ∉ (L ib).map Prod.fst ∧ ((L ib).length = A.MB ∨ ¬ A.Clean))
      (fun A' => ∃ L', Wrote A A' N ib jb L L'
        (Spec.set a (off A.bsize.get ib + ii) (off A.bsize.get jb + jj) v)) := by
  unfold setElement
  rw [h.find_eq hi hii, Res.bind_ok]
  simp only
  rw [h.find_eq hj hjj, Res.bind_ok]
  simp only
  rw [h.is.bsize_eq hi, Res.bind_ok, h.is.bsize_eq hj, Res.bind_ok]
  simp only [ROWMAJOR]
  by_cases hm : jb ∈ (L ib).map Prod.fst
  · obtain ⟨⟨c, b⟩, hp, rfl⟩ := List.mem_map.1 hm
    obtain ⟨k0, hs⟩ := List.mem_iff_getElem?.1 hp
    have hsz := (h.good ib hi).size _ hp
    rw [h.is.writeMatching_some hi (h.good ib hi).nodup hs
      (Nat.lt_of_lt_of_le (addr_lt hii hjj) hsz) v true, Res.bind_ok]
    exact ⟨_, h.wrote_stored hi hj hii hjj hs v⟩
  · rw [h.is.writeMatching_none hi hm, Res.bind_ok]
    simp only [Bool.false_eq_true, if_false]
    rw [h.is.nnzb_eq hi, Res.bind_ok]
    by_cases hfull : (L ib).length = A.MB
    · rw [if_pos hfull]
      exact ⟨hm, Or.inl hfull⟩
    · rw [if_neg hfull]
      have hcap : (L ib).length < A.MB := by
        have := h.is.le ib hi
        omega
      rw [Arr.read_ok (h.is.addr hi hcap), Res.bind_ok]
      cases hp : A.ptr.get (ib * A.MB + (L ib).length) with
      | some x =>
        refine ⟨hm, Or.inr fun hc => ?_⟩
        rw [hc ib _ hi (by rw [h.is.nz ib hi]) hcap] at hp
        cases hp
      | none =>
        simp only
        rw [unitBlock_eq (addr_lt hii hjj), Res.bind_ok]
        have he := h.is.append_eq hi hcap jb (⟨A.bsize.get ib * A.bsize.get jb,
          upd (fun _ => 0) (ii * A.bsize.get jb + jj) v⟩ : Arr R)
        have he' : (do
            let A1 ← A.alloc (ib * A.MB + (L ib).length) (⟨A.bsize.get ib * A.bsize.get jb,
              upd (fun _ => 0) (ii * A.bsize.get jb + jj) v⟩ : Arr R)
            let A2 ← A1.setIndex (ib * A.MB + (L ib).length) jb
            A2.setNnzb ib ((L ib).length + 1)) = .ok (A.app ib jb (⟨A.bsize.get ib * A.bsize.get jb,
              upd (fun _ => 0) (ii * A.bsize.get jb + jj) v⟩ : Arr R)) := by
          rw [← he]
          unfold alloc
          rw [Arr.write_ok _ (h.is.addr hi hcap)]
          rfl
        rw [he']
        exact ⟨_, h.wrote_append hi hj hii hjj hm hcap v rfl (fun k => rfl)⟩

end

end EllB

end Bml
