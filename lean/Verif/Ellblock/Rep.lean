import Verif.Ellblock.Model
import Verif.SRow

/-!
# What a block-ELLPACK matrix represents
-/

set_option linter.unusedSectionVars false

namespace Bml

namespace EllB

variable {R : Type} {E : Prop}

/-- Where block `n` starts. -/
def off (bs : Nat → Nat) (n : Nat) : Nat := ∑ k ∈ Finset.range n, bs k

theorem off_zero (bs : Nat → Nat) : off bs 0 = 0 := rfl

theorem off_succ (bs : Nat → Nat) (n : Nat) : off bs (n + 1) = off bs n + bs n :=
  Finset.sum_range_succ _ _

theorem off_mono (bs : Nat → Nat) {m n : Nat} (h : m ≤ n) : off bs m ≤ off bs n := by
  induction n with
  | zero => have : m = 0 := by omega
            subst this; exact le_refl _
  | succ n ih =>
    rcases Nat.lt_or_ge m (n + 1) with h' | h'
    · have := ih (by omega)
      rw [off_succ]; omega
    · have : m = n + 1 := by omega
      subst this; exact le_refl _

theorem off_lt {bs : Nat → Nat} {ib ii n : Nat} (h : ib < n) (hi : ii < bs ib) :
    off bs ib + ii < off bs n := by
  have := off_mono bs (show ib + 1 ≤ n from h)
  rw [off_succ] at this
  omega

/-- Block addresses are unique. -/
theorem off_inj {bs : Nat → Nat} {ib ii ib' ii' : Nat} (hi : ii < bs ib) (hi' : ii' < bs ib')
    (h : off bs ib + ii = off bs ib' + ii') : ib = ib' ∧ ii = ii' := by
  rcases Nat.lt_trichotomy ib ib' with h1 | h1 | h1
  · have := off_lt h1 hi; omega
  · subst h1; exact ⟨rfl, by omega⟩
  · have := off_lt h1 hi'; omega

/-- Every index below the size has a block address. -/
theorem off_surj (bs : Nat → Nat) : ∀ n i, i < off bs n → ∃ ib ii, ib < n ∧ ii < bs ib ∧
    off bs ib + ii = i := by
  intro n
  induction n with
  | zero => intro i h; rw [off_zero] at h; omega
  | succ n ih =>
    intro i h
    rw [off_succ] at h
    rcases Nat.lt_or_ge i (off bs n) with h1 | h1
    · obtain ⟨ib, ii, h2, h3, h4⟩ := ih i h1
      exact ⟨ib, ii, by omega, h3, h4⟩
    · exact ⟨n, i - off bs n, by omega, by omega, by omega⟩

/-- The address computation finds the block address. -/
theorem locate_eq {bs : Arr Nat} {ib ii : Nat} (hib : ib < bs.size) (hii : ii < bs.get ib) :
    ∀ d c fuel, c + d = ib → d < fuel →
      locate bs fuel c (off bs.get ib - off bs.get c + ii) = .ok (ib, ii) := by
  intro d
  induction d with
  | zero =>
    intro c fuel hc hf
    obtain ⟨f, rfl⟩ : ∃ f, fuel = f + 1 := ⟨fuel - 1, by omega⟩
    have : c = ib := by omega
    subst this
    unfold locate
    rw [Arr.read_ok hib, Res.bind_ok, Nat.sub_self, Nat.zero_add, if_neg (by omega)]
  | succ d ih =>
    intro c fuel hc hf
    obtain ⟨f, rfl⟩ : ∃ f, fuel = f + 1 := ⟨fuel - 1, by omega⟩
    have h1 := off_mono bs.get (show c + 1 ≤ ib by omega)
    have h0 := off_succ bs.get c
    unfold locate
    rw [Arr.read_ok (by omega), Res.bind_ok, if_pos (by omega)]
    have := ih (c + 1) f (by omega) (by omega)
    rw [← this]
    congr 1
    omega

theorem locate_ub {bs : Arr Nat} :
    ∀ d c fuel i, c + d = bs.size → off bs.get bs.size ≤ off bs.get c + i →
      locate bs fuel c i = .ub := by
  intro d
  induction d with
  | zero =>
    intro c fuel i hc hi
    cases fuel with
    | zero => rfl
    | succ f =>
      unfold locate
      rw [Arr.read_ub (by omega)]
      rfl
  | succ d ih =>
    intro c fuel i hc hi
    cases fuel with
    | zero => rfl
    | succ f =>
      unfold locate
      have h0 := off_succ bs.get c
      have h1 := off_mono bs.get (show c + 1 ≤ bs.size by omega)
      rw [Arr.read_ok (by omega), Res.bind_ok, if_pos (by omega)]
      exact ih (c + 1) f _ (by omega) (by omega)

/-- A well-formed matrix object: the arrays have their sizes; the block sizes add up to `N`; no
block row holds more than `MB` blocks; the blocks of a row belong to different block columns; each
block has its own live allocation, at least of the size of the block; the allocator's next address is free. -/
structure WF (A : EllB R) : Prop where
  bs_size : A.bsize.size = A.NB
  nz_size : A.nnzb.size = A.NB
  ix_size : A.indexb.size = A.NB * A.MB
  ptr_size : A.ptr.size = A.NB * A.MB
  N_eq : A.N = ∑ ib ∈ Finset.range A.NB, A.bsize.get ib
  nz_le : ∀ ib, ib < A.NB → A.nnzb.get ib ≤ A.MB
  col_lt : ∀ ib jp, ib < A.NB → jp < A.nnzb.get ib → A.indexb.get (ib * A.MB + jp) < A.NB
  col_inj : ∀ ib jp jp', ib < A.NB → jp < A.nnzb.get ib → jp' < A.nnzb.get ib →
    A.indexb.get (ib * A.MB + jp) = A.indexb.get (ib * A.MB + jp') → jp = jp'
  live : ∀ ib jp, ib < A.NB → jp < A.nnzb.get ib → ∃ a b, A.ptr.get (ib * A.MB + jp) = some a ∧
    A.heap a = some b ∧ A.bsize.get ib * A.bsize.get (A.indexb.get (ib * A.MB + jp)) ≤ b.size
  own : ∀ ib jp ib' jp', ib < A.NB → jp < A.nnzb.get ib → ib' < A.NB → jp' < A.nnzb.get ib' →
    A.ptr.get (ib * A.MB + jp) = A.ptr.get (ib' * A.MB + jp') → ib = ib' ∧ jp = jp'
  fresh : ∀ a, A.next ≤ a → A.heap a = none

/-- `A` is a well-formed `N × N` matrix whose elements, as returned by `bml_get_element`, are those
of `a`. -/
structure Represents [Zero R] (A : EllB R) (N : Nat) (a : Spec.Mat R) : Prop where
  wf : A.WF
  dim : A.N = N
  get : ∀ i j : Nat, i < N → j < N → A.getElement i j = .ok (a i j)

/-- The unused pointer cells are NULL. -/
def Clean (A : EllB R) : Prop :=
  ∀ ib jp, ib < A.NB → A.nnzb.get ib ≤ jp → jp < A.MB → A.ptr.get (ib * A.MB + jp) = none

/-- Block `(ib,jb)` is stored. -/
def Has (A : EllB R) (ib jb : Nat) : Prop :=
  ∃ jp, jp < A.nnzb.get ib ∧ A.indexb.get (ib * A.MB + jp) = jb

/-! ## Rows as lists of blocks -/

/-- The blocks of one block row, with their block columns, in storage order. -/
abbrev BRow (R : Type) := List (Nat × Arr R)

/-- The storage of `A` holds the block rows `L`. -/
structure Is (A : EllB R) (L : Nat → BRow R) : Prop where
  bs_size : A.bsize.size = A.NB
  nz_size : A.nnzb.size = A.NB
  ix_size : A.indexb.size = A.NB * A.MB
  ptr_size : A.ptr.size = A.NB * A.MB
  nz : ∀ ib, ib < A.NB → A.nnzb.get ib = (L ib).length
  le : ∀ ib, ib < A.NB → (L ib).length ≤ A.MB
  slot : ∀ ib jp jb b, ib < A.NB → (L ib)[jp]? = some (jb, b) →
    A.indexb.get (ib * A.MB + jp) = jb ∧
    ∃ a, A.ptr.get (ib * A.MB + jp) = some a ∧ A.heap a = some b
  own : ∀ ib jp ib' jp', ib < A.NB → jp < (L ib).length → ib' < A.NB → jp' < (L ib').length →
    A.ptr.get (ib * A.MB + jp) = A.ptr.get (ib' * A.MB + jp') → ib = ib' ∧ jp = jp'
  fresh : ∀ a, A.next ≤ a → A.heap a = none

/-- Block columns are in range and different within a row; blocks have their size. -/
structure GoodRow (NB : Nat) (bs : Nat → Nat) (ib : Nat) (L : BRow R) : Prop where
  nodup : (L.map Prod.fst).Nodup
  lt : ∀ p ∈ L, p.1 < NB
  size : ∀ p ∈ L, bs ib * bs p.1 ≤ p.2.size

/-- The content of block column `jb` of a block row. -/
def val [AddCommMonoid R] (L : BRow R) (jb k : Nat) : R :=
  SRow.den (L.map fun p => (p.1, p.2.get)) jb k

section
variable [AddCommMonoid R]

theorem val_of_mem {L : BRow R} (hn : (L.map Prod.fst).Nodup) {jb : Nat} {b : Arr R}
    (h : (jb, b) ∈ L) (k : Nat) : val L jb k = b.get k := by
  unfold val
  rw [SRow.den_of_mem (v := b.get)]
  · rw [List.map_map]; exact hn
  · exact List.mem_map.2 ⟨_, h, rfl⟩

theorem val_of_not_mem {L : BRow R} {jb : Nat} (h : jb ∉ L.map Prod.fst) (k : Nat) :
    val L jb k = 0 := by
  unfold val
  rw [SRow.den_of_not_mem]
  · rfl
  · rw [List.map_map]; exact h

@[simp] theorem val_nil (jb k : Nat) : val ([] : BRow R) jb k = 0 := rfl

@[simp] theorem val_cons (p : Nat × Arr R) (L : BRow R) (jb k : Nat) :
    val (p :: L) jb k = (if p.1 = jb then p.2.get k else 0) + val L jb k := by
  unfold val
  rw [List.map_cons, SRow.den_cons, Pi.add_apply]
  split <;> rfl

@[simp] theorem val_append (L L' : BRow R) (jb k : Nat) :
    val (L ++ L') jb k = val L jb k + val L' jb k := by
  unfold val
  rw [List.map_append, SRow.den_append]; rfl

/-- `A` represents `a`, in terms of rows. -/
structure Rows (A : EllB R) (N : Nat) (L : Nat → BRow R) (a : Spec.Mat R) : Prop where
  is : A.Is L
  good : ∀ ib, ib < A.NB → GoodRow A.NB A.bsize.get ib (L ib)
  dim : A.N = N
  N_eq : off A.bsize.get A.NB = N
  den : ∀ ib jb ii jj, ib < A.NB → jb < A.NB → ii < A.bsize.get ib → jj < A.bsize.get jb →
    val (L ib) jb (ii * A.bsize.get jb + jj) = a (off A.bsize.get ib + ii) (off A.bsize.get jb + jj)

end

/-! ## Reading -/

section
variable {A : EllB R} {L : Nat → BRow R}

theorem Is.addr (h : A.Is L) {ib jp : Nat} (hi : ib < A.NB) (hj : jp < A.MB) :
    ib * A.MB + jp < A.ptr.size := by rw [h.ptr_size]; exact addr_lt hi hj

theorem Is.addr' (h : A.Is L) {ib jp : Nat} (hi : ib < A.NB) (hj : jp < A.MB) :
    ib * A.MB + jp < A.indexb.size := by rw [h.ix_size]; exact addr_lt hi hj

theorem Is.lt_of_slot (h : A.Is L) {ib jp : Nat} {p : Nat × Arr R} (hi : ib < A.NB)
    (hs : (L ib)[jp]? = some p) : jp < A.MB := by
  have := h.le ib hi
  obtain ⟨h1, -⟩ := List.getElem?_eq_some_iff.1 hs
  omega

theorem Is.block_eq (h : A.Is L) {ib jp jb : Nat} {b : Arr R} (hi : ib < A.NB)
    (hs : (L ib)[jp]? = some (jb, b)) : A.block (ib * A.MB + jp) = .ok b := by
  obtain ⟨-, a, h1, h2⟩ := h.slot ib jp jb b hi hs
  unfold block
  rw [Arr.read_ok (h.addr hi (h.lt_of_slot hi hs)), Res.bind_ok, h1]
  simp only [h2]

theorem Is.blockAssert_eq (h : A.Is L) {ib jp jb : Nat} {b : Arr R} (hi : ib < A.NB)
    (hs : (L ib)[jp]? = some (jb, b)) : A.blockAssert (ib * A.MB + jp) = .ok b := by
  obtain ⟨-, a, h1, h2⟩ := h.slot ib jp jb b hi hs
  unfold blockAssert
  rw [Arr.read_ok (h.addr hi (h.lt_of_slot hi hs)), Res.bind_ok, h1]
  simp only [h2]

theorem Is.index_eq (h : A.Is L) {ib jp jb : Nat} {b : Arr R} (hi : ib < A.NB)
    (hs : (L ib)[jp]? = some (jb, b)) : A.indexb.read (ib * A.MB + jp) = .ok jb := by
  rw [Arr.read_ok (h.addr' hi (h.lt_of_slot hi hs)), (h.slot ib jp jb b hi hs).1]

theorem Is.nnzb_eq (h : A.Is L) {ib : Nat} (hi : ib < A.NB) :
    A.nnzb.read ib = .ok (L ib).length := by
  rw [Arr.read_ok (by rw [h.nz_size]; exact hi), h.nz ib hi]

theorem Is.bsize_eq (h : A.Is L) {ib : Nat} (hi : ib < A.NB) :
    A.bsize.read ib = .ok (A.bsize.get ib) := Arr.read_ok (by rw [h.bs_size]; exact hi)

/-- A loop over the positions of a list. -/
theorem loop_eq_forList {σ ι : Type} (l : List ι) (s : σ) (f : Nat → σ → Res σ)
    (g : ι → σ → Res σ) (h : ∀ k x s, l[k]? = some x → f k s = g x s) :
    loop l.length s f = forList l s g := by
  have key : ∀ n, n ≤ l.length → loop n s f = forList (l.take n) s g := by
    intro n
    induction n with
    | zero => intro _; rfl
    | succ n ih =>
      intro hn
      rw [loop_succ, ih (by omega), List.take_succ, forList_append]
      congr 1
      funext s'
      have : l[n]? = some l[n] := List.getElem?_eq_getElem (by omega)
      rw [this, h n l[n] s' this]
      show _ = forList [l[n]] s' g
      simp only [forList_cons, forList_nil]
      cases g l[n] s' <;> rfl
  have := key l.length (le_refl _)
  rwa [List.take_length] at this

/-- Walking over the blocks of a row is walking over its list (with positions). -/
theorem Is.eachIdx_eq {σ : Type} (h : A.Is L) {ib : Nat} (hi : ib < A.NB) (s : σ)
    (f : Nat → Nat → σ → Res σ) (g : Nat × Arr R → σ → Res σ)
    (hfg : ∀ jp jb b s, (L ib)[jp]? = some (jb, b) → f (ib * A.MB + jp) jb s = g (jb, b) s) :
    A.eachIdx ib s f = forList (L ib) s g := by
  unfold eachIdx
  rw [h.nnzb_eq hi, Res.bind_ok]
  apply loop_eq_forList
  rintro k ⟨jb, b⟩ s' hk
  simp only [ROWMAJOR]
  rw [h.index_eq hi hk, Res.bind_ok]
  exact hfg k jb b s' hk

/-- The search for a block. -/
theorem Is.findBlk_spec (h : A.Is L) {ib : Nat} (hi : ib < A.NB) (jb : Nat) :
    ∀ fuel jp, jp + fuel = (L ib).length →
      (A.findBlk ib jb jp fuel = .ok none ∧ ∀ k x, jp ≤ k → (L ib)[k]? = some x → x.1 ≠ jb) ∨
      (∃ k b, jp ≤ k ∧ A.findBlk ib jb jp fuel = .ok (some (ib * A.MB + k)) ∧
        (L ib)[k]? = some (jb, b)) := by
  intro fuel
  induction fuel with
  | zero =>
    intro jp hjp
    left
    refine ⟨rfl, fun k x hk hx => ?_⟩
    obtain ⟨h1, -⟩ := List.getElem?_eq_some_iff.1 hx
    omega
  | succ fuel ih =>
    intro jp hjp
    obtain ⟨⟨c, b⟩, hx⟩ : ∃ x, (L ib)[jp]? = some x := ⟨_, List.getElem?_eq_getElem (by omega)⟩
    unfold findBlk
    simp only [ROWMAJOR]
    rw [h.index_eq hi hx, Res.bind_ok]
    by_cases he : c = jb
    · right
      rw [if_pos he]
      exact ⟨jp, b, le_refl _, rfl, by rw [hx, ← he]⟩
    · rw [if_neg he]
      rcases ih (jp + 1) (by omega) with ⟨h1, h2⟩ | ⟨k, b, h0, h1, h2⟩
      · left
        refine ⟨h1, fun k x hk hx' => ?_⟩
        by_cases hkj : k = jp
        · subst hkj
          rw [hx] at hx'
          cases hx'
          exact he
        · exact h2 k x (by omega) hx'
      · right
        exact ⟨k, b, by omega, h1, h2⟩

theorem Is.findBlk_cases (h : A.Is L) {ib : Nat} (hi : ib < A.NB) (jb : Nat) :
    (A.findBlk ib jb 0 (L ib).length = .ok none ∧ jb ∉ (L ib).map Prod.fst) ∨
    (∃ k b, A.findBlk ib jb 0 (L ib).length = .ok (some (ib * A.MB + k)) ∧
      (L ib)[k]? = some (jb, b)) := by
  rcases h.findBlk_spec hi jb (L ib).length 0 (by omega) with ⟨h1, h2⟩ | ⟨k, b, -, h1, h2⟩
  · left
    refine ⟨h1, fun hm => ?_⟩
    obtain ⟨p, hp, he⟩ := List.mem_map.1 hm
    obtain ⟨k, hk⟩ := List.mem_iff_getElem?.1 hp
    exact h2 k p (by omega) hk he
  · exact Or.inr ⟨k, b, h1, h2⟩

end

section
variable [AddCommMonoid R] {A : EllB R} {L : Nat → BRow R} {N : Nat} {a : Spec.Mat R}

theorem Rows.find_eq (h : A.Rows N L a) {ib ii : Nat} (hib : ib < A.NB)
    (hii : ii < A.bsize.get ib) : A.find (off A.bsize.get ib + ii) = .ok (ib, ii) := by
  unfold find
  have := locate_eq (bs := A.bsize) (ib := ib) (ii := ii) (by rw [h.is.bs_size]; exact hib) hii
    ib 0 (A.bsize.size + 1) (by omega) (by rw [h.is.bs_size]; omega)
  rwa [off_zero, Nat.sub_zero] at this

theorem Rows.surj (h : A.Rows N L a) {i : Nat} (hi : i < N) :
    ∃ ib ii, ib < A.NB ∧ ii < A.bsize.get ib ∧ off A.bsize.get ib + ii = i :=
  off_surj _ _ _ (by rw [h.N_eq]; exact hi)

theorem Rows.get (h : A.Rows N L a) {i j : Nat} (hi : i < N) (hj : j < N) :
    A.getElement i j = .ok (a i j) := by
  obtain ⟨ib, ii, h1, h2, rfl⟩ := h.surj hi
  obtain ⟨jb, jj, h3, h4, rfl⟩ := h.surj hj
  unfold getElement
  have hd := h.dim
  rw [if_neg (by omega), if_neg (by omega)]
  simp only [Int.toNat_natCast]
  rw [h.find_eq h1 h2, Res.bind_ok]
  simp only
  rw [h.find_eq h3 h4, Res.bind_ok]
  simp only
  rw [h.is.nnzb_eq h1, Res.bind_ok, ← h.den ib jb ii jj h1 h3 h2 h4]
  rcases h.is.findBlk_cases h1 jb with ⟨e, hn⟩ | ⟨k, b, e, hs⟩
  · rw [e, Res.bind_ok, val_of_not_mem hn]
  · rw [e, Res.bind_ok]
    simp only [ROWMAJOR]
    have hm : (jb, b) ∈ L ib := List.mem_of_getElem? hs
    rw [h.is.bsize_eq h1, Res.bind_ok, h.is.bsize_eq h3, Res.bind_ok, h.is.block_eq h1 hs,
      Res.bind_ok, val_of_mem (h.good ib h1).nodup hm]
    exact Arr.read_ok (Nat.lt_of_lt_of_le (addr_lt h2 h4) ((h.good ib h1).size _ hm))

theorem Rows.wf (h : A.Rows N L a) : A.WF := by
  have hlen : ∀ ib jp, ib < A.NB → jp < A.nnzb.get ib → ∃ x, (L ib)[jp]? = some x := by
    intro ib jp hib hjp
    rw [h.is.nz ib hib] at hjp
    exact ⟨_, List.getElem?_eq_getElem hjp⟩
  refine ⟨h.is.bs_size, h.is.nz_size, h.is.ix_size, h.is.ptr_size, h.dim.trans h.N_eq.symm,
    fun ib hi => by rw [h.is.nz ib hi]; exact h.is.le ib hi, ?_, ?_, ?_, ?_, h.is.fresh⟩
  · intro ib jp hib hjp
    obtain ⟨⟨jb, b⟩, hx⟩ := hlen ib jp hib hjp
    rw [(h.is.slot ib jp jb b hib hx).1]
    exact (h.good ib hib).lt _ (List.mem_of_getElem? hx)
  · intro ib jp jp' hib hjp hjp' he
    obtain ⟨⟨jb, b⟩, hx⟩ := hlen ib jp hib hjp
    obtain ⟨⟨jb', b'⟩, hx'⟩ := hlen ib jp' hib hjp'
    rw [(h.is.slot ib jp jb b hib hx).1, (h.is.slot ib jp' jb' b' hib hx').1] at he
    subst he
    have hn := (h.good ib hib).nodup
    have hl : ∀ (k : Nat) (x : Nat × Arr R), (L ib)[k]? = some x → ((L ib).map Prod.fst)[k]? = some x.1 := by
      intro k x hk; rw [List.getElem?_map, hk]; rfl
    obtain ⟨h1, -⟩ := List.getElem?_eq_some_iff.1 (hl jp _ hx)
    exact (List.getElem?_inj h1 hn).1 ((hl jp _ hx).trans (hl jp' _ hx').symm)
  · intro ib jp hib hjp
    obtain ⟨⟨jb, b⟩, hx⟩ := hlen ib jp hib hjp
    obtain ⟨h1, a', h2, h3⟩ := h.is.slot ib jp jb b hib hx
    exact ⟨a', b, h2, h3, by rw [h1]; exact (h.good ib hib).size _ (List.mem_of_getElem? hx)⟩
  · intro ib jp ib' jp' h1 h2 h3 h4
    rw [h.is.nz ib h1] at h2
    rw [h.is.nz ib' h3] at h4
    exact h.is.own ib jp ib' jp' h1 h2 h3 h4

/-- The rows of a well-formed matrix. -/
def rows (A : EllB R) (ib : Nat) : BRow R :=
  (List.range (A.nnzb.get ib)).map fun jp => (A.indexb.get (ib * A.MB + jp),
    match A.ptr.get (ib * A.MB + jp) with
    | none => ⟨0, fun _ => 0⟩
    | some a => (A.heap a).getD ⟨0, fun _ => 0⟩)

theorem WF.is (h : A.WF) : A.Is A.rows := by
  refine ⟨h.bs_size, h.nz_size, h.ix_size, h.ptr_size, fun ib _ => by simp [rows],
    fun ib hi => by simpa [rows] using h.nz_le ib hi, ?_, ?_, h.fresh⟩
  · intro ib jp jb b hib hx
    obtain ⟨hlt, -⟩ := List.getElem?_eq_some_iff.1 hx
    have hlt' : jp < A.nnzb.get ib := by simpa [rows] using hlt
    obtain ⟨a', b', h1, h2, h3⟩ := h.live ib jp hib hlt'
    simp only [rows, List.getElem?_map, List.getElem?_range hlt', Option.map_some, h1, h2,
      Option.getD_some, Option.some.injEq, Prod.mk.injEq] at hx
    refine ⟨hx.1, a', h1, ?_⟩
    rw [h2, hx.2]
  · intro ib jp ib' jp' h1 h2 h3 h4
    exact h.own ib jp ib' jp' h1 (by simpa [rows] using h2) h3 (by simpa [rows] using h4)

theorem WF.good (h : A.WF) {ib : Nat} (hib : ib < A.NB) :
    GoodRow A.NB A.bsize.get ib (A.rows ib) := by
  refine ⟨?_, ?_, ?_⟩
  · unfold rows
    rw [List.map_map]
    refine List.Nodup.map_on ?_ List.nodup_range
    intro x hx y hy he
    exact h.col_inj ib x y hib (by simpa using hx) (by simpa using hy) he
  · intro p hp
    obtain ⟨jp, hjp, rfl⟩ := List.mem_map.1 hp
    exact h.col_lt ib jp hib (by simpa using hjp)
  · intro p hp
    obtain ⟨jp, hjp, rfl⟩ := List.mem_map.1 hp
    obtain ⟨a', b', h1, h2, h3⟩ := h.live ib jp hib (by simpa using hjp)
    simp only [h1, h2, Option.getD_some, h3]

/-- The public and the internal form agree. -/
theorem represents_iff : A.Represents N a ↔ ∃ L, A.Rows N L a := by
  constructor
  · intro h
    have hwf := h.wf
    -- the matrix given by the rows
    have hex : ∃ a', A.Rows N A.rows a' := by
      refine ⟨fun i j => val (A.rows (Classical.epsilon fun ib => ∃ ii, ib < A.NB ∧
          ii < A.bsize.get ib ∧ off A.bsize.get ib + ii = i))
          (Classical.epsilon fun jb => ∃ jj, jb < A.NB ∧ jj < A.bsize.get jb ∧
            off A.bsize.get jb + jj = j)
          ((i - off A.bsize.get (Classical.epsilon fun ib => ∃ ii, ib < A.NB ∧
            ii < A.bsize.get ib ∧ off A.bsize.get ib + ii = i)) *
            A.bsize.get (Classical.epsilon fun jb => ∃ jj, jb < A.NB ∧ jj < A.bsize.get jb ∧
            off A.bsize.get jb + jj = j) +
            (j - off A.bsize.get (Classical.epsilon fun jb => ∃ jj, jb < A.NB ∧
              jj < A.bsize.get jb ∧ off A.bsize.get jb + jj = j))), hwf.is,
          fun ib hib => hwf.good hib, h.dim, ?_, ?_⟩
      · rw [← h.dim]; exact hwf.N_eq.symm
      · intro ib jb ii jj h1 h2 h3 h4
        have key : ∀ b r, b < A.NB → r < A.bsize.get b →
            (Classical.epsilon fun ib => ∃ ii, ib < A.NB ∧ ii < A.bsize.get ib ∧
              off A.bsize.get ib + ii = off A.bsize.get b + r) = b := by
          intro b r hb hr
          have := Classical.epsilon_spec (p := fun ib => ∃ ii, ib < A.NB ∧ ii < A.bsize.get ib ∧
              off A.bsize.get ib + ii = off A.bsize.get b + r) ⟨b, r, hb, hr, rfl⟩
          obtain ⟨ii', -, hb', he⟩ := this
          exact (off_inj hb' hr he).1
        simp only [key ib ii h1 h3, key jb jj h2 h4]
        congr 2
        · congr 1; omega
        · omega
    obtain ⟨a', h'⟩ := hex
    refine ⟨A.rows, h'.is, h'.good, h'.dim, h'.N_eq, fun ib jb ii jj h1 h2 h3 h4 => ?_⟩
    rw [h'.den ib jb ii jj h1 h2 h3 h4]
    have hi := off_lt h1 h3
    have hj := off_lt h2 h4
    rw [h'.N_eq] at hi hj
    exact Res.ok.inj ((h'.get hi hj).symm.trans (h.get _ _ hi hj))
  · rintro ⟨L, h⟩
    exact ⟨h.wf, h.dim, fun i j hi hj => h.get hi hj⟩

theorem Rows.congr (h : A.Rows N L a) {a' : Spec.Mat R} (he : Spec.Eq N a a') :
    A.Rows N L a' := by
  refine ⟨h.is, h.good, h.dim, h.N_eq, fun ib jb ii jj h1 h2 h3 h4 => ?_⟩
  rw [h.den ib jb ii jj h1 h2 h3 h4]
  have hi := off_lt h1 h3
  have hj := off_lt h2 h4
  rw [h.N_eq] at hi hj
  exact he _ _ hi hj

end

/-! ## Writing -/

section
variable {A : EllB R} {L : Nat → BRow R}

/-- The matrix with the content of one block replaced. -/
def withBlock (A : EllB R) (ind : Nat) (b : Arr R) : EllB R :=
  match A.ptr.get ind with
  | none => A
  | some a => { A with heap := upd A.heap a (some b) }

theorem withBlock_frame (A : EllB R) (ind : Nat) (b : Arr R) :
    (A.withBlock ind b).N = A.N ∧ (A.withBlock ind b).M = A.M ∧ (A.withBlock ind b).NB = A.NB ∧
    (A.withBlock ind b).MB = A.MB ∧ (A.withBlock ind b).bsize = A.bsize ∧
    (A.withBlock ind b).nnzb = A.nnzb ∧ (A.withBlock ind b).indexb = A.indexb ∧
    (A.withBlock ind b).ptr = A.ptr := by
  unfold withBlock
  split <;> simp

theorem Is.putBlock_eq (h : A.Is L) {ib jp jb : Nat} {b : Arr R} (hi : ib < A.NB)
    (hs : (L ib)[jp]? = some (jb, b)) (b' : Arr R) :
    A.putBlock (ib * A.MB + jp) b' = .ok (A.withBlock (ib * A.MB + jp) b') := by
  obtain ⟨-, a, h1, h2⟩ := h.slot ib jp jb b hi hs
  unfold putBlock withBlock
  rw [Arr.read_ok (h.addr hi (h.lt_of_slot hi hs)), Res.bind_ok, h1]
  simp only [h2]

theorem Is.withBlock (h : A.Is L) {ib jp jb : Nat} {b : Arr R} (hi : ib < A.NB)
    (hs : (L ib)[jp]? = some (jb, b)) (b' : Arr R) :
    (A.withBlock (ib * A.MB + jp) b').Is (upd L ib ((L ib).set jp (jb, b'))) := by
  obtain ⟨-, a, h1, h2⟩ := h.slot ib jp jb b hi hs
  have hlen : ∀ ib', (upd L ib ((L ib).set jp (jb, b')) ib').length = (L ib').length := by
    intro ib'
    by_cases he : ib' = ib
    · subst he; simp
    · rw [upd_ne _ _ he]
  obtain ⟨hlt, -⟩ := List.getElem?_eq_some_iff.1 hs
  unfold EllB.withBlock
  rw [h1]
  refine ⟨h.bs_size, h.nz_size, h.ix_size, h.ptr_size, fun ib' hi' => by rw [hlen]; exact h.nz ib' hi',
    fun ib' hi' => by rw [hlen]; exact h.le ib' hi', ?_, ?_, ?_⟩
  · intro ib' jp' jb' c hi' hs'
    by_cases he : ib' = ib ∧ jp' = jp
    · obtain ⟨rfl, rfl⟩ := he
      rw [upd_same, List.getElem?_set_self hlt] at hs'
      cases hs'
      exact ⟨(h.slot _ _ _ _ hi hs).1, a, h1, by simp⟩
    · have hs2 : (L ib')[jp']? = some (jb', c) := by
        by_cases hb : ib' = ib
        · subst hb
          rw [upd_same, List.getElem?_set_ne (fun h => he ⟨rfl, h.symm⟩)] at hs'
          exact hs'
        · rwa [upd_ne _ _ hb] at hs'
      obtain ⟨h3, a', h4, h5⟩ := h.slot ib' jp' jb' c hi' hs2
      obtain ⟨hlt', -⟩ := List.getElem?_eq_some_iff.1 hs2
      refine ⟨h3, a', h4, ?_⟩
      show upd A.heap a (some b') a' = some c
      rw [upd_ne, h5]
      rintro rfl
      exact he (h.own ib' jp' ib jp hi' hlt' hi hlt (by rw [h4, h1]))
  · intro ib1 jp1 ib2 jp2 a1 a2 a3 a4
    rw [hlen] at a2 a4
    exact h.own ib1 jp1 ib2 jp2 a1 a2 a3 a4
  · intro a' ha'
    show upd A.heap a (some b') a' = none
    rw [upd_ne]
    · exact h.fresh a' ha'
    · rintro rfl
      rw [h.fresh a' ha'] at h2
      cases h2

/-- A new block at the end of block row `ib`. -/
def app (A : EllB R) (ib jb : Nat) (b : Arr R) : EllB R :=
  { A with
    ptr := ⟨A.ptr.size, upd A.ptr.get (ib * A.MB + A.nnzb.get ib) (some A.next)⟩
    heap := upd A.heap A.next (some b)
    next := A.next + 1
    indexb := ⟨A.indexb.size, upd A.indexb.get (ib * A.MB + A.nnzb.get ib) jb⟩
    nnzb := ⟨A.nnzb.size, upd A.nnzb.get ib (A.nnzb.get ib + 1)⟩ }

theorem Is.app (h : A.Is L) {ib : Nat} (hi : ib < A.NB) (hcap : (L ib).length < A.MB) (jb : Nat)
    (b : Arr R) : (A.app ib jb b).Is (upd L ib (L ib ++ [(jb, b)])) := by
  have hnz := h.nz ib hi
  have hM : (A.app ib jb b).MB = A.MB := rfl
  -- addresses of live blocks differ from the new one
  have hold : ∀ ib' jp' jb' c, ib' < A.NB → (L ib')[jp']? = some (jb', c) →
      ib' * A.MB + jp' ≠ ib * A.MB + (L ib).length := by
    intro ib' jp' jb' c hi' hs' he
    obtain ⟨hlt, -⟩ := List.getElem?_eq_some_iff.1 hs'
    have := addr_inj (h.lt_of_slot hi' hs') hcap he
    obtain ⟨rfl, rfl⟩ := this
    omega
  have hold' : ∀ ib' jp', ib' < A.NB → jp' < (L ib').length → ∃ a, a < A.next ∧
      A.ptr.get (ib' * A.MB + jp') = some a ∧ (A.app ib jb b).ptr.get (ib' * A.MB + jp') = some a := by
    intro ib' jp' hi' hj'
    have hx : (L ib')[jp']? = some (L ib')[jp'] := List.getElem?_eq_getElem hj'
    obtain ⟨-, a, h1, h2⟩ := h.slot ib' jp' _ _ hi' hx
    refine ⟨a, ?_, h1, ?_⟩
    · by_contra hc
      rw [h.fresh a (by omega)] at h2
      cases h2
    · show upd A.ptr.get _ _ _ = _
      rw [upd_ne, h1]
      rw [hnz]
      exact hold _ _ _ _ hi' hx
  have hnew : (A.app ib jb b).ptr.get (ib * A.MB + (L ib).length) = some A.next := by
    show upd A.ptr.get _ _ _ = _
    rw [hnz, upd_same]
  have hcase : ∀ ib' jp', jp' < (upd L ib (L ib ++ [(jb, b)]) ib').length →
      jp' < (L ib').length ∨ (ib' = ib ∧ jp' = (L ib).length) := by
    intro ib' jp' hj
    by_cases he : ib' = ib
    · subst he
      rw [upd_same] at hj
      simp at hj
      by_cases hh : jp' < (L ib').length
      · exact Or.inl hh
      · exact Or.inr ⟨rfl, by omega⟩
    · rw [upd_ne _ _ he] at hj
      exact Or.inl hj
  refine ⟨h.bs_size, h.nz_size, h.ix_size, h.ptr_size, ?_, ?_, ?_, ?_, ?_⟩
  · intro ib' hi'
    show upd A.nnzb.get ib _ ib' = _
    by_cases he : ib' = ib
    · subst he; rw [upd_same, upd_same, hnz]; simp
    · rw [upd_ne _ _ he, upd_ne _ _ he]; exact h.nz ib' hi'
  · intro ib' hi'
    show _ ≤ A.MB
    by_cases he : ib' = ib
    · subst he; rw [upd_same]; simp; omega
    · rw [upd_ne _ _ he]; exact h.le ib' hi'
  · intro ib' jp' jb' c hi' hs'
    obtain ⟨hlt', -⟩ := List.getElem?_eq_some_iff.1 hs'
    rcases hcase ib' jp' hlt' with hj | ⟨rfl, rfl⟩
    · have hs2 : (L ib')[jp']? = some (jb', c) := by
        by_cases he : ib' = ib
        · subst he
          rwa [upd_same, List.getElem?_append_left hj] at hs'
        · rwa [upd_ne _ _ he] at hs'
      obtain ⟨h3, a', h4, h5⟩ := h.slot ib' jp' jb' c hi' hs2
      obtain ⟨a2, ha2, h6, h7⟩ := hold' ib' jp' hi' hj
      rw [h4] at h6
      obtain rfl := Option.some.inj h6
      refine ⟨?_, a', h7, ?_⟩
      · show upd A.indexb.get _ _ _ = _
        rw [upd_ne, hM, h3]
        rw [hnz]
        exact hold _ _ _ _ hi' hs2
      · show upd A.heap _ _ _ = _
        rw [upd_ne _ _ (by omega), h5]
    · rw [upd_same, List.getElem?_append_right (le_refl _)] at hs'
      simp at hs'
      obtain ⟨rfl, rfl⟩ := hs'
      refine ⟨?_, A.next, hnew, ?_⟩
      · show upd A.indexb.get _ _ _ = _
        rw [hnz, hM, upd_same]
      · show upd A.heap _ _ _ = _
        rw [upd_same]
  · intro ib1 jp1 ib2 jp2 a1 a2 a3 a4 he
    rw [hM] at he
    rcases hcase ib1 jp1 a2 with c1 | ⟨rfl, rfl⟩
    · obtain ⟨x, hx, hx1, hx2⟩ := hold' ib1 jp1 a1 c1
      rcases hcase ib2 jp2 a4 with c2 | ⟨rfl, rfl⟩
      · obtain ⟨y, hy, hy1, hy2⟩ := hold' ib2 jp2 a3 c2
        rw [hx2, hy2] at he
        exact h.own ib1 jp1 ib2 jp2 a1 c1 a3 c2 (by rw [hx1, hy1, he])
      · rw [hx2, hnew] at he
        have := Option.some.inj he
        omega
    · rcases hcase ib2 jp2 a4 with c2 | ⟨rfl, rfl⟩
      · obtain ⟨y, hy, hy1, hy2⟩ := hold' ib2 jp2 a3 c2
        rw [hy2, hnew] at he
        have := Option.some.inj he
        omega
      · exact ⟨rfl, rfl⟩
  · intro a ha
    have ha' : A.next + 1 ≤ a := ha
    show upd A.heap A.next (some b) a = none
    rw [upd_ne _ _ (by omega)]
    exact h.fresh a (by omega)

/-- The three writes that append a block, in the two orders in which they occur. -/
theorem Is.append_eq (h : A.Is L) {ib : Nat} (hi : ib < A.NB) (hcap : (L ib).length < A.MB)
    (jb : Nat) (b : Arr R) :
    (do let A1 ← A.alloc (ib * A.MB + (L ib).length) b
        let A2 ← A1.setIndex (ib * A1.MB + (L ib).length) jb
        A2.setNnzb ib ((L ib).length + 1)) = .ok (A.app ib jb b) := by
  unfold alloc setIndex setNnzb EllB.app
  rw [Arr.write_ok _ (h.addr hi hcap)]
  simp only [Res.bind_ok, Res.pure_eq]
  rw [Arr.write_ok _ (h.addr' hi hcap)]
  simp only [Res.bind_ok]
  rw [Arr.write_ok _ (by rw [h.nz_size]; exact hi)]
  simp only [Res.bind_ok, h.nz ib hi]

theorem Is.append_eq' (h : A.Is L) {ib : Nat} (hi : ib < A.NB) (hcap : (L ib).length < A.MB)
    (jb : Nat) (b : Arr R) :
    (do let A1 ← A.alloc (ib * A.MB + (L ib).length) b
        let A2 ← A1.setNnzb ib ((L ib).length + 1)
        A2.setIndex (ib * A.MB + (L ib).length) jb) = .ok (A.app ib jb b) := by
  unfold alloc setIndex setNnzb EllB.app
  rw [Arr.write_ok _ (h.addr hi hcap)]
  simp only [Res.bind_ok, Res.pure_eq]
  rw [Arr.write_ok _ (by rw [h.nz_size]; exact hi)]
  simp only [Res.bind_ok]
  rw [Arr.write_ok _ (h.addr' hi hcap)]
  simp only [Res.bind_ok, h.nz ib hi]

theorem Clean.app (hc : A.Clean) (h : A.Is L) {ib : Nat} (hi : ib < A.NB)
    (hcap : (L ib).length < A.MB) (jb : Nat) (b : Arr R) : (A.app ib jb b).Clean := by
  intro ib' jp' hi' h1 h2
  have hnz := h.nz ib hi
  have h1' : upd A.nnzb.get ib (A.nnzb.get ib + 1) ib' ≤ jp' := h1
  show upd A.ptr.get _ _ (ib' * A.MB + jp') = none
  rw [upd_ne]
  · refine hc ib' jp' hi' ?_ h2
    by_cases he : ib' = ib
    · subst he; rw [upd_same] at h1'; omega
    · rwa [upd_ne _ _ he] at h1'
  · intro he
    obtain ⟨rfl, rfl⟩ := addr_inj h2 (by rw [hnz]; exact hcap) he
    rw [upd_same] at h1'
    omega

theorem Clean.withBlock (hc : A.Clean) (ind : Nat) (b : Arr R) : (A.withBlock ind b).Clean := by
  obtain ⟨-, -, h3, h4, -, h6, -, h8⟩ := withBlock_frame A ind b
  intro ib jp
  rw [h3, h4, h6, h8]
  exact hc ib jp

/-- Every pointer cell is NULL or has a live allocation of its own of at least `m` elements. -/
structure Neat (A : EllB R) (m : Nat) : Prop where
  live : ∀ k x, k < A.ptr.size → A.ptr.get k = some x → ∃ b, A.heap x = some b ∧ m ≤ b.size
  own : ∀ k k' x, k < A.ptr.size → k' < A.ptr.size → A.ptr.get k = some x →
    A.ptr.get k' = some x → k = k'
  fresh : ∀ x, A.next ≤ x → A.heap x = none

theorem Neat.withBlock {m : Nat} (h : A.Neat m) {ind : Nat} (hi : ind < A.ptr.size) {b : Arr R}
    (hb : m ≤ b.size) : (A.withBlock ind b).Neat m := by
  unfold EllB.withBlock
  cases hp : A.ptr.get ind with
  | none => exact h
  | some x =>
    refine ⟨?_, h.own, ?_⟩
    · intro k y hk hy
      obtain ⟨c, h1, h2⟩ := h.live k y hk hy
      by_cases he : y = x
      · subst he; exact ⟨b, by simp only [upd_same], hb⟩
      · exact ⟨c, by simp only [upd_ne _ _ he]; exact h1, h2⟩
    · intro y hy
      obtain ⟨c, h1, -⟩ := h.live ind x hi hp
      have hn := h.fresh y hy
      have : y ≠ x := by rintro rfl; rw [h1] at hn; cases hn
      simp only [upd_ne _ _ this]
      exact hn

end

/-- The loop of `bml_norm_inf` and `bml_norm_inf_fast`
(`bml_utilities_ellblock_typed.c` 260-293) over the values `v k`, `k < n`, in a linear order. -/
def normInf {K : Type} [LinearOrder K] [Zero K] (abs : R → K) (v : Nat → R) : Nat → K
  | 0 => 0
  | n + 1 => if abs (v n) > normInf abs v n then abs (v n) else normInf abs v n

/-- The norm of a nonempty block is above the threshold iff some element is. -/
theorem normInf_gt {K : Type} [LinearOrder K] [Zero K] (abs : R → K) (h0 : ∀ x, 0 ≤ abs x)
    (v : Nat → R) (θ : K) : ∀ n, 0 < n →
      (normInf abs v n > θ ↔ ∃ k, k < n ∧ abs (v k) > θ) := by
  intro n
  induction n with
  | zero => intro h; omega
  | succ n ih =>
    intro _
    unfold normInf
    by_cases hn : n = 0
    · subst hn
      have : (if abs (v 0) > normInf abs v 0 then abs (v 0) else normInf abs v 0) = abs (v 0) := by
        unfold normInf
        split
        · rfl
        · next hc => exact le_antisymm (h0 _) (not_lt.1 hc)
      rw [this]
      constructor
      · intro h; exact ⟨0, by omega, h⟩
      · rintro ⟨k, hk, h⟩
        have : k = 0 := by omega
        subst this; exact h
    · have ih := ih (by omega)
      by_cases hc : abs (v n) > normInf abs v n
      · rw [if_pos hc]
        constructor
        · intro h; exact ⟨n, by omega, h⟩
        · rintro ⟨k, hk, h⟩
          by_cases hkn : k = n
          · subst hkn; exact h
          · exact lt_trans (ih.2 ⟨k, by omega, h⟩) hc
      · rw [if_neg hc]
        constructor
        · intro h
          obtain ⟨k, hk, h'⟩ := ih.1 h
          exact ⟨k, by omega, h'⟩
        · rintro ⟨k, hk, h⟩
          by_cases hkn : k = n
          · subst hkn; exact lt_of_lt_of_le h (not_lt.1 hc)
          · exact ih.2 ⟨k, by omega, h⟩

end EllB

end Bml
