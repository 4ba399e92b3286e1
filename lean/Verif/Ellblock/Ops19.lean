import Verif.Ellblock.Ops18
import Verif.Ellpack.TransposeInPlace
import Mathlib.Algebra.Ring.Pi

/-!
# Block-ELLPACK: moving, exchanging and transposing stored blocks
-/

set_option linter.unusedSectionVars false

namespace Bml

namespace EllB

variable {R : Type} {E : Prop}

/-! ## Blocks -/

theorem wp_swapBlocks {bi bj : Nat} {b b' : Arr R} (hb : bi * bj ≤ b.size) (hb' : bi * bj ≤ b'.size) :
    (swapBlocks bi bj b b').wp E (fun r => r.1.size = b.size ∧ r.2.size = b'.size ∧
      TB bj bi b' r.1 ∧ TB bi bj b r.2) := by
  unfold swapBlocks
  refine wp_loop2 (fun i j (st : Arr R × Arr R) => st.1.size = b.size ∧ st.2.size = b'.size ∧
    ∀ ii jj, ii < bi → jj < bj →
      ((ii < i ∨ (ii = i ∧ jj < j)) → st.1.get (ii * bj + jj) = b'.get (jj * bi + ii) ∧
        st.2.get (jj * bi + ii) = b.get (ii * bj + jj)) ∧
      (¬ (ii < i ∨ (ii = i ∧ jj < j)) → st.1.get (ii * bj + jj) = b.get (ii * bj + jj) ∧
        st.2.get (jj * bi + ii) = b'.get (jj * bi + ii))) ⟨rfl, rfl, ?_⟩ ?_ ?_ ?_
  · intro ii jj _ _
    exact ⟨fun h => by omega, fun _ => ⟨rfl, rfl⟩⟩
  · rintro i j hi hj ⟨x, y⟩ ⟨h1, h2, h3⟩
    simp only at h1 h2 h3 ⊢
    have a1 : i * bj + j < bi * bj := addr_lt hi hj
    have a2 : j * bi + i < bj * bi := addr_lt hj hi
    rw [Nat.mul_comm bj bi] at a2
    simp only [ROWMAJOR, Res.wp_bind, Arr.wp_read, Arr.wp_write, Res.pure_eq, Res.wp_ok]
    refine ⟨by omega, by omega, by omega, by omega, h1, h2, ?_⟩
    intro ii jj hii hjj
    have hc := (h3 i j hi hj).2 (by omega)
    by_cases he : ii = i ∧ jj = j
    · obtain ⟨rfl, rfl⟩ := he
      rw [upd_same, upd_same]
      exact ⟨fun _ => ⟨hc.2, hc.1⟩, fun h => by omega⟩
    · rw [upd_ne _ _ (fun hh => he (addr_inj hjj hj hh)),
        upd_ne _ _ (fun hh => he (by have := addr_inj hii hi hh; exact ⟨this.2, this.1⟩))]
      exact ⟨fun h => (h3 ii jj hii hjj).1 (by omega), fun h => (h3 ii jj hii hjj).2 (by omega)⟩
  · rintro i ⟨x, y⟩ hi ⟨h1, h2, h3⟩
    exact ⟨h1, h2, fun ii jj hii hjj => ⟨fun h => (h3 ii jj hii hjj).1 (by omega),
      fun h => (h3 ii jj hii hjj).2 (by omega)⟩⟩
  · rintro ⟨x, y⟩ ⟨h1, h2, h3⟩
    refine ⟨h1, h2, fun jj ii hjj hii => ((h3 ii jj hii hjj).1 (by omega)).1,
      fun ii jj hii hjj => ((h3 ii jj hii hjj).1 (by omega)).2⟩

theorem wp_flipBlock {n : Nat} {b : Arr R} (hb : n * n ≤ b.size) :
    (flipBlock n b).wp E (fun b' => b'.size = b.size ∧ TB n n b b') := by
  unfold flipBlock
  -- pairs whose smaller coordinate is below `i`, or equal to `i` with the larger one below `j`
  let D : Nat → Nat → Nat → Nat → Prop := fun i j ii jj =>
    (min ii jj < i) ∨ (min ii jj = i ∧ max ii jj < j)
  let I : Nat → Nat → Arr R → Prop := fun i j x => x.size = b.size ∧ ∀ ii jj, ii < n → jj < n →
    (D i j ii jj → x.get (ii * n + jj) = b.get (jj * n + ii)) ∧
    (¬ D i j ii jj → x.get (ii * n + jj) = b.get (ii * n + jj))
  refine wp_loop' (fun i x => I i i x) ⟨rfl, ?_⟩ ?_ ?_
  · intro ii jj _ _
    exact ⟨fun h => by simp only [D] at h; omega, fun _ => rfl⟩
  · intro i hi x hx
    refine wp_loopFrom (fun j x => I i j x) (by omega) hx ?_ ?_
    · rintro j hj1 hj2 x ⟨h1, h2⟩
      have a1 : i * n + j < n * n := addr_lt hi hj2
      have a2 : j * n + i < n * n := addr_lt hj2 hi
      simp only [ROWMAJOR, Res.wp_bind, Arr.wp_read, Arr.wp_write]
      refine ⟨by omega, by omega, by omega, by omega, h1, ?_⟩
      have c1 := (h2 i j hi hj2).2 (by simp only [D]; omega)
      have c2 := (h2 j i hj2 hi).2 (by simp only [D]; omega)
      intro ii jj hii hjj
      simp only
      by_cases e1 : ii = j ∧ jj = i
      · obtain ⟨rfl, rfl⟩ := e1
        rw [upd_same]
        exact ⟨fun _ => c1, fun h => absurd (show D jj (ii + 1) ii jj by simp only [D]; omega) h⟩
      · rw [upd_ne _ _ (fun hh => e1 (addr_inj hjj hi hh))]
        by_cases e2 : ii = i ∧ jj = j
        · obtain ⟨rfl, rfl⟩ := e2
          rw [upd_same]
          exact ⟨fun _ => c2, fun h => absurd (show D ii (jj + 1) ii jj by simp only [D]; omega) h⟩
        · rw [upd_ne _ _ (fun hh => e2 (addr_inj hjj hj2 hh))]
          have hD : D i (j + 1) ii jj ↔ D i j ii jj := by
            simp only [D]
            constructor
            · rintro (h | ⟨h, h'⟩)
              · exact Or.inl h
              · right
                refine ⟨h, ?_⟩
                by_contra hc
                rcases Nat.le_total ii jj with hle | hle
                · exact e2 ⟨by omega, by omega⟩
                · exact e1 ⟨by omega, by omega⟩
            · rintro (h | ⟨h, h'⟩)
              · exact Or.inl h
              · exact Or.inr ⟨h, by omega⟩
          rw [hD]
          exact h2 ii jj hii hjj
    · rintro x ⟨h1, h2⟩
      refine ⟨h1, fun ii jj hii hjj => ?_⟩
      have hD : D (i + 1) (i + 1) ii jj ↔ D i n ii jj := by
        simp only [D]; omega
      rw [hD]
      exact h2 ii jj hii hjj
  · rintro x ⟨h1, h2⟩
    refine ⟨h1, fun ii jj hii hjj => ?_⟩
    exact (h2 jj ii hjj hii).1 (by simp only [D]; omega)

/-! ## Rows -/

section
variable {C : EllB R} {L : Nat → BRow R}

theorem Part.block_eq (h : C.Part L) {ib jp jb : Nat} {b : Arr R} (hi : ib < C.NB)
    (hs : (L ib)[jp]? = some (jb, b)) : C.block (ib * C.MB + jp) = .ok b :=
  Is.block_eq (A := C.withLens L) h hi hs

theorem Part.index_eq (h : C.Part L) {ib jp jb : Nat} {b : Arr R} (hi : ib < C.NB)
    (hs : (L ib)[jp]? = some (jb, b)) : C.indexb.read (ib * C.MB + jp) = .ok jb :=
  Is.index_eq (A := C.withLens L) h hi hs

theorem Part.addr (h : C.Part L) {ib jp : Nat} (hi : ib < C.NB) (hj : jp < C.MB) :
    ib * C.MB + jp < C.ptr.size := Is.addr (A := C.withLens L) h hi hj

theorem Part.addr' (h : C.Part L) {ib jp : Nat} (hi : ib < C.NB) (hj : jp < C.MB) :
    ib * C.MB + jp < C.indexb.size := Is.addr' (A := C.withLens L) h hi hj

theorem Part.lt_of_slot (h : C.Part L) {ib jp : Nat} {p : Nat × Arr R} (hi : ib < C.NB)
    (hs : (L ib)[jp]? = some p) : jp < C.MB := Is.lt_of_slot (A := C.withLens L) h hi hs

theorem Part.congr (h : C.Part L) {L' : Nat → BRow R} (he : ∀ ib, ib < C.NB → L ib = L' ib) :
    C.Part L' := by
  refine ⟨h.bs_size, rfl, h.ix_size, h.ptr_size, fun _ _ => rfl, ?_, ?_, ?_, h.fresh⟩
  · intro ib hib; rw [← he ib hib]; exact h.le ib hib
  · intro ib jp jb b hib hs; rw [← he ib hib] at hs; exact h.slot ib jp jb b hib hs
  · intro ib jp ib' jp' h1 h2 h3 h4 h5
    rw [← he ib h1] at h2
    rw [← he ib' h3] at h4
    exact h.own ib jp ib' jp' h1 h2 h3 h4 h5

/-- New content for a stored block. -/
theorem Part.putBlock (h : C.Part L) {ib jp jb : Nat} {b : Arr R} (hi : ib < C.NB)
    (hs : (L ib)[jp]? = some (jb, b)) (b' : Arr R) :
    ∃ C', C.putBlock (ib * C.MB + jp) b' = .ok C' ∧ Same C C' ∧ C'.nnzb = C.nnzb ∧
      C'.Part (upd L ib ((L ib).set jp (jb, b'))) := by
  have h' : (C.withLens L).Is L := h
  have hw := h'.withBlock hi hs b'
  obtain ⟨-, a, h1, h2⟩ := h'.slot ib jp jb b hi hs
  have h1' : C.ptr.get (ib * C.MB + jp) = some a := h1
  have h2' : C.heap a = some b := h2
  refine ⟨{ C with heap := upd C.heap a (some b') }, ?_, ⟨rfl, rfl, rfl, rfl, rfl⟩, rfl, ?_⟩
  · unfold EllB.putBlock
    rw [Arr.read_ok (h.addr hi (h.lt_of_slot hi hs)), Res.bind_ok, h1']
    simp only [h2']
  · unfold EllB.withBlock at hw
    rw [show (C.withLens L).ptr.get (ib * (C.withLens L).MB + jp) = some a from h1] at hw
    exact ⟨hw.bs_size, rfl, hw.ix_size, hw.ptr_size, fun _ _ => rfl, hw.le, hw.slot, hw.own, hw.fresh⟩

/-- Exchanging two blocks of a row. -/
theorem Part.swap (h : C.Part L) {r p q : Nat} {x y : Nat × Arr R} (hr : r < C.NB)
    (hp : (L r)[p]? = some x) (hq : (L r)[q]? = some y) :
    ∃ C', swapEntries C r p q = .ok C' ∧ Same C C' ∧ C'.nnzb = C.nnzb ∧
      C'.Part (upd L r (((L r).set p y).set q x)) := by
  have lp := h.lt_of_slot hr hp
  have lq := h.lt_of_slot hr hq
  obtain ⟨kp, hp'⟩ := List.getElem?_eq_some_iff.1 hp
  obtain ⟨kq, hq'⟩ := List.getElem?_eq_some_iff.1 hq
  by_cases hpq : p = q
  · subst hpq
    rw [hp] at hq
    cases hq
    refine ⟨C, if_pos rfl, Same.refl _, rfl, h.congr ?_⟩
    intro ib hib
    by_cases he : ib = r
    · subst he
      rw [upd_same, List.set_set]
      refine List.ext_getElem? fun k => ?_
      rw [List.getElem?_set]
      split
      · next hk => subst hk; rw [hp]
      · rfl
    · rw [upd_ne _ _ he]
  · have hne : r * C.MB + p ≠ r * C.MB + q := by omega
    refine ⟨{ C with
      ptr := ⟨C.ptr.size, upd (upd C.ptr.get (r * C.MB + p) (C.ptr.get (r * C.MB + q)))
        (r * C.MB + q) (C.ptr.get (r * C.MB + p))⟩
      indexb := ⟨C.indexb.size, upd (upd C.indexb.get (r * C.MB + p) (C.indexb.get (r * C.MB + q)))
        (r * C.MB + q) (C.indexb.get (r * C.MB + p))⟩ }, ?_, ⟨rfl, rfl, rfl, rfl, rfl⟩, rfl, ?_⟩
    · unfold swapEntries
      rw [if_neg hpq]
      simp only [ROWMAJOR]
      rw [Arr.read_ok (h.addr hr lp), Res.bind_ok, Arr.read_ok (h.addr' hr lp), Res.bind_ok,
        Arr.read_ok (h.addr hr lq), Res.bind_ok, Arr.write_ok _ (h.addr hr lp), Res.bind_ok,
        Arr.write_ok _ (by exact h.addr hr lq), Res.bind_ok,
        Arr.read_ok (h.addr' hr lq), Res.bind_ok, Arr.write_ok _ (h.addr' hr lp), Res.bind_ok,
        Arr.write_ok _ (by exact h.addr' hr lq), Res.bind_ok]
      rfl
    · -- positions are exchanged
      let τ : Nat → Nat → Nat := fun r' k => if r' = r then (if k = p then q else if k = q then p else k)
        else k
      have hτ : ∀ r' k, τ r' (τ r' k) = k := by
        intro r' k
        simp only [τ]
        split_ifs <;> simp_all
      have hget : ∀ (α : Type) (f : Nat → α) r' k, k < C.MB →
          upd (upd f (r * C.MB + p) (f (r * C.MB + q))) (r * C.MB + q) (f (r * C.MB + p))
            (r' * C.MB + k) = f (r' * C.MB + τ r' k) := by
        intro α f r' k hk
        by_cases hr' : r' = r
        · subst hr'
          simp only [τ, if_true]
          by_cases hkq : k = q
          · subst hkq
            rw [upd_same, if_neg (fun h => hpq h.symm), if_pos rfl]
          · rw [upd_ne _ _ (by omega)]
            by_cases hkp : k = p
            · subst hkp; rw [upd_same, if_pos rfl]
            · rw [upd_ne _ _ (by omega), if_neg hkp, if_neg hkq]
        · simp only [τ, if_neg hr']
          rw [upd_ne _ _ (fun hh => hr' (addr_inj hk lq hh).1),
            upd_ne _ _ (fun hh => hr' (addr_inj hk lp hh).1)]
      have hlen : ∀ r', (upd L r (((L r).set p y).set q x) r').length = (L r').length := by
        intro r'
        by_cases hr' : r' = r
        · subst hr'; rw [upd_same]; simp
        · rw [upd_ne _ _ hr']
      have hlist : ∀ r' k, (upd L r (((L r).set p y).set q x) r')[k]? = (L r')[τ r' k]? := by
        intro r' k
        by_cases hr' : r' = r
        · subst hr'
          rw [upd_same]
          simp only [τ, if_true]
          rw [List.getElem?_set, List.getElem?_set, List.length_set]
          by_cases hkq : q = k
          · subst hkq
            rw [if_pos rfl, if_pos kq, if_neg (fun h => hpq h.symm), if_pos rfl, hp]
          · rw [if_neg hkq]
            by_cases hkp : p = k
            · subst hkp
              rw [if_pos rfl, if_pos kp, if_pos rfl, hq]
            · rw [if_neg hkp, if_neg (fun h => hkp h.symm), if_neg (fun h => hkq h.symm)]
        · rw [upd_ne _ _ hr']
          simp only [τ, if_neg hr']
      have hτlt : ∀ r' k, k < (L r').length → τ r' k < (L r').length := by
        intro r' k hk
        simp only [τ]
        split_ifs with h1 h2 h3
        · rw [h1]; exact kq
        · rw [h1]; exact kp
        · exact hk
        · exact hk
      refine ⟨h.bs_size, rfl, h.ix_size, h.ptr_size, fun _ _ => rfl, ?_, ?_, ?_, h.fresh⟩
      · intro r' hr'
        rw [hlen]; exact h.le r' hr'
      · intro r' k jb b hr' hs
        have hk : k < C.MB := by
          have h1 := getElem?_lt_some hs
          rw [hlen] at h1
          have : (L r').length ≤ C.MB := h.le r' hr'
          omega
        rw [hlist] at hs
        obtain ⟨h1, a, h2, h3⟩ := h.slot r' _ jb b hr' hs
        exact ⟨(hget _ C.indexb.get r' k hk).trans h1, a, (hget _ C.ptr.get r' k hk).trans h2, h3⟩
      · intro r1 k1 r2 k2 a1 a2 a3 a4 he
        rw [hlen] at a2 a4
        have l1 : (L r1).length ≤ C.MB := h.le r1 a1
        have l2 : (L r2).length ≤ C.MB := h.le r2 a3
        have e1 := hget _ C.ptr.get r1 k1 (by omega)
        have e2 := hget _ C.ptr.get r2 k2 (by omega)
        have he' : C.ptr.get (r1 * C.MB + τ r1 k1) = C.ptr.get (r2 * C.MB + τ r2 k2) :=
          e1.symm.trans (he.trans e2)
        obtain ⟨rfl, q2⟩ := h.own r1 _ r2 _ a1 (hτlt _ _ a2) a3 (hτlt _ _ a4) he'
        refine ⟨rfl, ?_⟩
        have := congrArg (τ r1) q2
        rwa [hτ, hτ] at this

/-- The last block of row `ib` is handed over to row `jb`. -/
theorem Part.move (h : C.Part L) {ib jb c : Nat} (hib : ib < C.NB) (hjb : jb < C.NB) (hne : ib ≠ jb)
    {l : BRow R} {b : Arr R} (hl : L ib = l ++ [(c, b)]) (hcap : (L jb).length < C.MB) (d : Nat)
    (nz : Arr Nat) :
    ({ C with
      ptr := ⟨C.ptr.size, upd C.ptr.get (jb * C.MB + (L jb).length)
        (C.ptr.get (ib * C.MB + l.length))⟩
      indexb := ⟨C.indexb.size, upd C.indexb.get (jb * C.MB + (L jb).length) d⟩
      nnzb := nz } : EllB R).Part (upd (upd L jb (L jb ++ [(d, b)])) ib l) := by
  have hlast : (L ib)[l.length]? = some (c, b) := by rw [hl]; simp
  have hll : l.length < (L ib).length := by rw [hl]; simp
  -- where a block was before
  let σ : Nat → Nat → Nat × Nat := fun r k => if r = jb ∧ k = (L jb).length then (ib, l.length)
    else (r, k)
  have hcase : ∀ r k, k < (upd (upd L jb (L jb ++ [(d, b)])) ib l r).length →
      (r = jb ∧ k = (L jb).length) ∨ (k < (L r).length ∧ ¬ (r = jb ∧ k = (L jb).length) ∧
        ¬ (r = ib ∧ k = l.length) ∧
        (upd (upd L jb (L jb ++ [(d, b)])) ib l r)[k]? = (L r)[k]?) := by
    intro r k hk
    by_cases hr : r = ib
    · subst hr
      rw [upd_same] at hk ⊢
      right
      refine ⟨by omega, fun hh => hne hh.1, fun hh => by omega, ?_⟩
      rw [hl, List.getElem?_append_left hk]
    · rw [upd_ne _ _ hr] at hk ⊢
      by_cases hj : r = jb
      · subst hj
        rw [upd_same] at hk ⊢
        rw [List.length_append, List.length_singleton] at hk
        by_cases hke : k = (L r).length
        · exact Or.inl ⟨rfl, hke⟩
        · right
          refine ⟨by omega, fun hh => hke hh.2, fun hh => hr hh.1, ?_⟩
          rw [List.getElem?_append_left (by omega)]
      · rw [upd_ne _ _ hj] at hk ⊢
        exact Or.inr ⟨hk, fun hh => hj hh.1, fun hh => hr hh.1, rfl⟩
  have hold : ∀ (α : Type) (f : Nat → α) (v : α) r k, k < (L r).length → r < C.NB →
      ¬ (r = jb ∧ k = (L jb).length) →
      upd f (jb * C.MB + (L jb).length) v (r * C.MB + k) = f (r * C.MB + k) := by
    intro α f v r k hk hr hn
    have : (L r).length ≤ C.MB := h.le r hr
    rw [upd_ne]
    intro hh
    exact hn (addr_inj (by omega) hcap hh)
  refine ⟨h.bs_size, rfl, h.ix_size, h.ptr_size, fun _ _ => rfl, ?_, ?_, ?_, h.fresh⟩
  · intro r hr
    by_cases he : r = ib
    · subst he
      rw [upd_same]
      have : (L r).length ≤ C.MB := h.le r hr
      show l.length ≤ C.MB
      omega
    · rw [upd_ne _ _ he]
      by_cases hj : r = jb
      · subst hj; rw [upd_same, List.length_append]; exact hcap
      · rw [upd_ne _ _ hj]; exact h.le r hr
  · intro r k e x hr hs
    rcases hcase r k (getElem?_lt_some hs) with ⟨rfl, rfl⟩ | ⟨h1, h2, h3, h4⟩
    · rw [upd_ne _ _ (Ne.symm hne), upd_same, List.getElem?_append_right (le_refl _)] at hs
      simp at hs
      obtain ⟨rfl, rfl⟩ := hs
      obtain ⟨-, a, h2, h3⟩ := h.slot ib _ c b hib hlast
      exact ⟨upd_same _ _ _, a, (upd_same _ _ _).trans h2, h3⟩
    · rw [h4] at hs
      obtain ⟨q1, a, q2, q3⟩ := h.slot r k e x hr hs
      exact ⟨(hold _ C.indexb.get d r k h1 hr h2).trans q1, a,
        (hold _ C.ptr.get _ r k h1 hr h2).trans q2, q3⟩
  · intro r1 k1 r2 k2 a1 a2 a3 a4 he
    rcases hcase r1 k1 a2 with ⟨rfl, rfl⟩ | ⟨b1, b2, b3, -⟩
    · rcases hcase r2 k2 a4 with ⟨rfl, rfl⟩ | ⟨c1, c2, c3, -⟩
      · exact ⟨rfl, rfl⟩
      · have e1 : C.ptr.get (ib * C.MB + l.length) = C.ptr.get (r2 * C.MB + k2) :=
          (upd_same _ _ _).symm.trans (he.trans (hold _ C.ptr.get _ r2 k2 c1 a3 c2))
        have := h.own ib l.length r2 k2 hib hll a3 c1 e1
        exact absurd ⟨this.1.symm, this.2.symm⟩ c3
    · rcases hcase r2 k2 a4 with ⟨rfl, rfl⟩ | ⟨c1, c2, c3, -⟩
      · have e1 : C.ptr.get (r1 * C.MB + k1) = C.ptr.get (ib * C.MB + l.length) :=
          (hold _ C.ptr.get _ r1 k1 b1 a1 b2).symm.trans (he.trans (upd_same _ _ _))
        exact absurd (h.own r1 k1 ib l.length a1 b1 hib hll e1) b3
      · exact h.own r1 k1 r2 k2 a1 b1 a3 c1
          ((hold _ C.ptr.get _ r1 k1 b1 a1 b2).symm.trans
            (he.trans (hold _ C.ptr.get _ r2 k2 c1 a3 c2)))

theorem Part.findSym_spec (h : C.Part L) {i j : Nat} (hj : j < C.NB) : ∀ (V X : BRow R),
    L j = X ++ V →
      (∃ U1 U2 w, V = U1 ++ (i, w) :: U2 ∧
        findSym C i j X.length V.length = .ok (some (X.length + U1.length))) ∨
      (i ∉ V.map Prod.fst ∧ findSym C i j X.length V.length = .ok none) := by
  intro V
  induction V with
  | nil => intro X _; right; exact ⟨by simp, rfl⟩
  | cons p V ih =>
    intro X hX
    obtain ⟨c, w⟩ := p
    have hget : (L j)[X.length]? = some (c, w) := by rw [hX]; simp
    have hstep : findSym C i j X.length ((c, w) :: V).length =
        if c = i then .ok (some X.length) else findSym C i j (X.length + 1) V.length := by
      simp only [List.length_cons, findSym, ROWMAJOR]
      rw [h.index_eq hj hget, Res.bind_ok]
      rfl
    by_cases hc : c = i
    · subst hc
      left
      refine ⟨[], V, w, rfl, ?_⟩
      rw [hstep, if_pos rfl]; simp
    · rcases ih (X ++ [(c, w)]) (by rw [hX]; simp) with ⟨U1, U2, w', hV, hf⟩ | ⟨hV, hf⟩
      · left
        refine ⟨(c, w) :: U1, U2, w', by rw [hV]; rfl, ?_⟩
        rw [hstep, if_neg hc]
        simp only [List.length_append, List.length_cons, List.length_nil, Nat.zero_add] at hf
        rw [hf]
        simp only [List.length_cons]
        congr 2
        omega
      · right
        refine ⟨by simp only [List.map_cons, List.mem_cons, not_or]; exact ⟨Ne.symm hc, hV⟩, ?_⟩
        rw [hstep, if_neg hc]
        simpa using hf

end

end EllB

end Bml
