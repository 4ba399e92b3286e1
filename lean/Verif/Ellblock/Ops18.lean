import Verif.Ellblock.Ops17
import Verif.Ellblock.Model4

/-!
# Block-ELLPACK: transposition into a new matrix
-/

set_option linter.unusedSectionVars false

namespace Bml

namespace EllB

variable {R : Type} {E : Prop}

/-- `b'` is the transpose of the `m × n` block `b`. -/
def TB (m n : Nat) (b b' : Arr R) : Prop :=
  ∀ ii jj, ii < m → jj < n → b'.get (jj * m + ii) = b.get (ii * n + jj)

/-- The rows `LB` hold the transposes of the blocks in `D`. -/
structure Trans (bs : Nat → Nat) (NB : Nat) (D : Nat → Nat → Arr R → Prop) (LB : Nat → BRow R) :
    Prop where
  nodup : ∀ jb, jb < NB → ((LB jb).map Prod.fst).Nodup
  sound : ∀ jb c b', jb < NB → (c, b') ∈ LB jb → ∃ b, D c jb b ∧ bs c * bs jb ≤ b'.size ∧
    TB (bs c) (bs jb) b b'
  cpl : ∀ jb c b, jb < NB → D c jb b → c ∈ (LB jb).map Prod.fst

theorem Trans.congr {bs : Nat → Nat} {NB : Nat} {D D' : Nat → Nat → Arr R → Prop}
    {LB : Nat → BRow R} (h : Trans bs NB D LB) (hd : ∀ c jb b, D c jb b ↔ D' c jb b) :
    Trans bs NB D' LB :=
  ⟨h.nodup, fun jb c b' h1 h2 => by
      obtain ⟨b, q1, q2⟩ := h.sound jb c b' h1 h2
      exact ⟨b, (hd _ _ _).1 q1, q2⟩,
    fun jb c b h1 h2 => h.cpl jb c b h1 ((hd _ _ _).2 h2)⟩

theorem Trans.snoc {bs : Nat → Nat} {NB : Nat} {D : Nat → Nat → Arr R → Prop}
    {LB : Nat → BRow R} (h : Trans bs NB D LB) {ib jb : Nat} {b t : Arr R}
    (hno : ∀ b, ¬ D ib jb b) (hjb : jb < NB) (hs : bs ib * bs jb ≤ t.size)
    (ht : TB (bs ib) (bs jb) b t) :
    Trans bs NB (fun c k x => D c k x ∨ (c = ib ∧ k = jb ∧ x = b))
      (upd LB jb (LB jb ++ [(ib, t)])) := by
  refine ⟨?_, ?_, ?_⟩
  · intro k hk
    by_cases hkj : k = jb
    · subst hkj
      rw [upd_same, List.map_append, List.nodup_append]
      refine ⟨h.nodup k hk, by simp, ?_⟩
      rintro x hx y hy rfl
      simp at hy
      subst hy
      obtain ⟨⟨c, b'⟩, hp, rfl⟩ := List.mem_map.1 hx
      obtain ⟨b0, q, -⟩ := h.sound k _ b' hk hp
      exact hno b0 q
    · rw [upd_ne _ _ hkj]; exact h.nodup k hk
  · intro k c b' hk hm
    by_cases hkj : k = jb
    · subst hkj
      rw [upd_same, List.mem_append] at hm
      rcases hm with hm | hm
      · obtain ⟨b0, q1, q2, q3⟩ := h.sound k c b' hk hm
        exact ⟨b0, Or.inl q1, q2, q3⟩
      · simp only [List.mem_singleton, Prod.mk.injEq] at hm
        obtain ⟨rfl, rfl⟩ := hm
        exact ⟨b, Or.inr ⟨rfl, rfl, rfl⟩, hs, ht⟩
    · rw [upd_ne _ _ hkj] at hm
      obtain ⟨b0, q1, q2, q3⟩ := h.sound k c b' hk hm
      exact ⟨b0, Or.inl q1, q2, q3⟩
  · rintro k c x hk (hd | ⟨rfl, rfl, rfl⟩)
    · have := h.cpl k c x hk hd
      by_cases hkj : k = jb
      · subst hkj; rw [upd_same, List.map_append, List.mem_append]; exact Or.inl this
      · rw [upd_ne _ _ hkj]; exact this
    · rw [upd_same, List.map_append, List.mem_append]; exact Or.inr (by simp)

section
variable [CommRing R] {A : EllB R} {N : Nat} {L : Nat → BRow R} {a : Spec.Mat R}

/-- Rows with the transposes of all blocks represent the transposed matrix. -/
theorem Trans.rows {B : EllB R} {LB : Nat → BRow R} (h : A.Rows N L a)
    (ht : Trans A.bsize.get A.NB (fun c jb b => c < A.NB ∧ (jb, b) ∈ L c) LB) (hI : B.Is LB)
    (hs : Same A B) : B.Rows N LB (Spec.transpose a) := by
  refine ⟨hI, ?_, hs.N.trans h.dim, by rw [hs.bsize, hs.NB]; exact h.N_eq, ?_⟩
  · intro jb hjb
    rw [hs.NB] at hjb
    rw [hs.NB, hs.bsize]
    refine ⟨ht.nodup jb hjb, ?_, ?_⟩
    · rintro ⟨c, b'⟩ hp
      obtain ⟨b, q, -⟩ := ht.sound jb c b' hjb hp
      exact q.1
    · rintro ⟨c, b'⟩ hp
      obtain ⟨b, -, q, -⟩ := ht.sound jb c b' hjb hp
      simpa [Nat.mul_comm] using q
  · intro jb c jj ii hjb hc hjj hii
    rw [hs.NB] at hjb hc
    rw [hs.bsize] at hjj hii ⊢
    show _ = a (off A.bsize.get c + ii) (off A.bsize.get jb + jj)
    rw [← h.den c jb ii jj hc hjb hii hjj]
    by_cases hm : c ∈ (LB jb).map Prod.fst
    · obtain ⟨⟨c', b'⟩, hp, rfl⟩ := List.mem_map.1 hm
      obtain ⟨b, q, -, q3⟩ := ht.sound jb _ b' hjb hp
      rw [val_of_mem (ht.nodup jb hjb) hp, val_of_mem (h.good _ hc).nodup q.2]
      exact q3 ii jj hii hjj
    · rw [val_of_not_mem hm, val_of_not_mem]
      intro hm'
      obtain ⟨⟨k, b⟩, hp, rfl⟩ := List.mem_map.1 hm'
      exact hm (ht.cpl _ c b hjb ⟨hc, hp⟩)

theorem Trans.has {B : EllB R} {LB : Nat → BRow R} (h : A.Rows N L a)
    (ht : Trans A.bsize.get A.NB (fun c jb b => c < A.NB ∧ (jb, b) ∈ L c) LB) (hI : B.Is LB)
    (hs : Same A B) {ib jb : Nat} (hib : ib < A.NB) (hjb : jb < A.NB) :
    B.Has jb ib ↔ A.Has ib jb := by
  rw [(Trans.rows h ht hI hs).has_iff (by rw [hs.NB]; exact hjb), h.has_iff hib]
  constructor
  · intro hm
    obtain ⟨⟨c, b'⟩, hp, rfl⟩ := List.mem_map.1 hm
    obtain ⟨b, q, -⟩ := ht.sound jb _ b' hjb hp
    exact List.mem_map.2 ⟨_, q.2, rfl⟩
  · intro hm
    obtain ⟨⟨c, b⟩, hp, rfl⟩ := List.mem_map.1 hm
    exact ht.cpl _ ib b hjb ⟨hib, hp⟩

/-- Column `jb` of `A` fits into a block row. -/
def ColsFit (A : EllB R) : Prop :=
  ∀ jb, jb < A.NB → ∃ S : Finset Nat, S.card ≤ A.MB ∧ ∀ ib, ib < A.NB → A.Has ib jb → ib ∈ S

/-- `bml_transpose_new`. -/
theorem Rows.wp_transposeNew (h : A.Rows N L a) (hMB : 0 < A.MB) (hM : A.M ≤ N) (hNB : 0 < A.NB)
    (hbs : ∀ ib, ib < A.NB → A.bsize.get ib < 1000000) {g : Glob} (hg : g.mb ≠ 0) (junk : Nat → R)
    (hfit : A.ColsFit) :
    (transposeNew g junk A).wp E (fun r => r.1 = g ∧ Same A r.2 ∧ r.2.Clean ∧
      (∃ LB, r.2.Rows N LB (Spec.transpose a)) ∧
      ∀ ib jb, ib < A.NB → jb < A.NB → (r.2.Has jb ib ↔ A.Has ib jb)) := by
  have e0 : (⟨A.NB, A.bsize.get⟩ : Arr Nat) = A.bsize := by rw [← h.is.bs_size]
  have e1 := blockMatrix_eq (R := R) (g := g) (M := A.M) (bs := A.bsize) hNB hMB
    (le_of_eq h.is.bs_size.symm) hbs (by rw [h.N_eq]; exact hM) hg
  rw [h.N_eq, e0] at e1
  unfold transposeNew
  rw [e1, Res.bind_ok]
  simp only
  rw [Res.wp_bind]
  -- the invariant
  let D : Nat → BRow R → Nat → Nat → Arr R → Prop := fun ib pre c jb b =>
    (c < ib ∧ (jb, b) ∈ L c) ∨ (c = ib ∧ (jb, b) ∈ pre)
  let I : Nat → BRow R → EllB R → Prop := fun ib pre B => Same A B ∧ B.Clean ∧ ∃ LB : Nat → BRow R,
    B.Is LB ∧ Trans A.bsize.get A.NB (D ib pre) LB
  have hstep : ∀ ib, ib < A.NB → ∀ pre jb b post, L ib = pre ++ (jb, b) :: post →
      ∀ B ind, A.block ind = .ok b → I ib pre B →
      (transposePut junk A ib ind jb B).wp E (I ib (pre ++ [(jb, b)])) := by
    rintro ib hib pre jb b post hsp B ind hblk ⟨hs, hc, LB, hI, hT⟩
    have hmem : (jb, b) ∈ L ib := by rw [hsp]; simp
    have hjb : jb < A.NB := (h.good ib hib).lt _ hmem
    have hjB : jb < B.NB := by rw [hs.NB]; exact hjb
    have hsz := (h.good ib hib).size _ hmem
    have hno : ∀ b, ¬ D ib pre ib jb b := by
      rintro b0 (⟨h1, -⟩ | ⟨-, h1⟩)
      · omega
      · have := (h.good ib hib).nodup
        rw [hsp, List.map_append, List.map_cons, List.nodup_append] at this
        exact this.2.2 jb (List.mem_map.2 ⟨_, h1, rfl⟩) jb (by simp) rfl
    have hlen : (LB jb).length < A.MB := by
      obtain ⟨S, hS, hSm⟩ := hfit jb hjb
      have := length_lt_of_subset (hT.nodup jb hjb) (S := S) ?_ (c := ib) ?_ ?_
      · rw [List.length_map] at this; omega
      · intro c hc
        obtain ⟨⟨c', b'⟩, hp, rfl⟩ := List.mem_map.1 hc
        obtain ⟨b0, q, -⟩ := hT.sound jb _ b' hjb hp
        have : c' < A.NB ∧ (jb, b0) ∈ L c' := by
          rcases q with ⟨q1, q2⟩ | ⟨rfl, q2⟩
          · exact ⟨by omega, q2⟩
          · exact ⟨hib, by rw [hsp]; exact List.mem_append_left _ q2⟩
        exact hSm _ this.1 ((h.has_iff this.1).2 (List.mem_map.2 ⟨_, this.2, rfl⟩))
      · intro hm
        obtain ⟨⟨c', b'⟩, hp, rfl⟩ := List.mem_map.1 hm
        obtain ⟨b0, q, -⟩ := hT.sound jb _ b' hjb hp
        exact hno b0 q
      · exact hSm ib hib ((h.has_iff hib).2 (List.mem_map.2 ⟨_, hmem, rfl⟩))
    have hlB : (LB jb).length < B.MB := by rw [hs.MB]; exact hlen
    unfold transposePut
    rw [hI.nnzb_eq hjB, Res.bind_ok]
    simp only [ROWMAJOR]
    unfold setIndex
    rw [← hs.MB, Arr.write_ok _ (hI.addr' hjB hlB)]
    simp only [Res.bind_ok, Res.pure_eq]
    rw [h.is.bsize_eq hib, Res.bind_ok, h.is.bsize_eq hjb, Res.bind_ok, hblk, Res.bind_ok, Res.wp_bind]
    refine Res.wp_mono (wp_transBlock hsz (le_refl _)) ?_
    rintro t ⟨ht1, ht2⟩
    unfold alloc setNnzb
    simp only
    rw [Arr.write_ok _ (hI.addr hjB hlB)]
    simp only [Res.bind_ok, Res.pure_eq]
    rw [Arr.write_ok _ (by rw [hI.nz_size]; exact hjB)]
    simp only [Res.bind_ok, Res.wp_ok]
    have happ := hI.app hjB hlB ib t
    have hcl := hc.app hI hjB hlB ib t
    have heq : B.app jb ib t = { B with
      ptr := ⟨B.ptr.size, upd B.ptr.get (jb * B.MB + (LB jb).length) (some B.next)⟩
      heap := upd B.heap B.next (some t)
      next := B.next + 1
      indexb := ⟨B.indexb.size, upd B.indexb.get (jb * B.MB + (LB jb).length) ib⟩
      nnzb := ⟨B.nnzb.size, upd B.nnzb.get jb ((LB jb).length + 1)⟩ } := by
      unfold app; rw [hI.nz jb hjB]
    rw [heq] at happ hcl
    refine ⟨⟨hs.N, hs.M, hs.NB, hs.MB, hs.bsize⟩, hcl, _, happ, ?_⟩
    refine (hT.snoc hno hjb (by rw [ht1]) ht2).congr ?_
    intro c k x
    simp only [D, List.mem_append, List.mem_singleton, Prod.mk.injEq]
    constructor
    · rintro ((hh | ⟨h1, h2⟩) | ⟨h1, h2, h3⟩)
      · exact Or.inl hh
      · exact Or.inr ⟨h1, Or.inl h2⟩
      · exact Or.inr ⟨h1, Or.inr ⟨h2, h3⟩⟩
    · rintro (hh | ⟨h1, h2 | ⟨h2, h3⟩⟩)
      · exact Or.inl (Or.inl hh)
      · exact Or.inl (Or.inr ⟨h1, h2⟩)
      · exact Or.inr ⟨h1, h2, h3⟩
  have hrow : ∀ ib, ib < A.NB → ∀ B, I ib [] B →
      (A.eachIdx ib B (transposePut junk A ib)).wp E (I ib (L ib)) := by
    intro ib hib B hB
    have hloop : ∀ k, k ≤ (L ib).length → (loop k B fun jp s => do
        let jb ← A.indexb.read (ROWMAJOR ib jp A.NB A.MB)
        transposePut junk A ib (ROWMAJOR ib jp A.NB A.MB) jb s).wp E (I ib ((L ib).take k)) := by
      intro k hk
      refine wp_loop' (fun k s => I ib ((L ib).take k) s) (by simpa using hB) ?_ (fun _ h => h)
      intro jp hjp s hI
      obtain ⟨⟨jb, b⟩, hx⟩ : ∃ x, (L ib)[jp]? = some x := ⟨_, List.getElem?_eq_getElem (by omega)⟩
      simp only [ROWMAJOR]
      rw [h.is.index_eq hib hx, Res.bind_ok]
      have htk : (L ib).take (jp + 1) = (L ib).take jp ++ [(jb, b)] := by
        rw [List.take_add_one, hx]; rfl
      rw [htk]
      obtain ⟨hlt, hget⟩ := List.getElem?_eq_some_iff.1 hx
      refine hstep ib hib _ jb b ((L ib).drop (jp + 1)) ?_ s _ (h.is.block_eq hib hx) hI
      rw [← hget, List.getElem_cons_drop, List.take_append_drop]
    unfold eachIdx
    rw [h.is.nnzb_eq hib, Res.bind_ok]
    have := hloop (L ib).length (le_refl _)
    rwa [List.take_length] at this
  have hI0 : I 0 [] (empty N A.M A.NB A.MB A.bsize) := by
    refine ⟨⟨h.dim.symm, rfl, rfl, rfl, rfl⟩, empty_clean, fun _ => [], empty_is h.is.bs_size,
      fun _ _ => by simp, fun _ _ _ _ hm => by simp at hm, ?_⟩
    rintro jb c b - (⟨h1, -⟩ | ⟨-, h1⟩)
    · omega
    · simp at h1
  refine Res.wp_mono (wp_loop' (fun ib B => I ib [] B) hI0 (fun ib hib B hB =>
    Res.wp_mono (hrow ib hib B hB) ?_) (fun _ h => h)) ?_
  · rintro B' ⟨h1, h2, LB, h3, h4⟩
    refine ⟨h1, h2, LB, h3, h4.congr ?_⟩
    intro c jb b
    simp only [D]
    constructor
    · rintro (⟨q1, q2⟩ | ⟨rfl, q2⟩)
      · exact Or.inl ⟨by omega, q2⟩
      · exact Or.inl ⟨by omega, q2⟩
    · rintro (⟨q1, q2⟩ | ⟨-, q2⟩)
      · by_cases hc : c = ib
        · subst hc; exact Or.inr ⟨rfl, q2⟩
        · exact Or.inl ⟨by omega, q2⟩
      · simp at q2
  · rintro B ⟨h1, h2, LB, h3, h4⟩
    have h4' := h4.congr (D' := fun c jb b => c < A.NB ∧ (jb, b) ∈ L c) (by
      intro c jb b
      simp only [D]
      constructor
      · rintro (q | ⟨-, q⟩)
        · exact q
        · simp at q
      · exact Or.inl)
    rw [Res.pure_eq, Res.wp_ok]
    exact ⟨rfl, h1, h2, ⟨LB, Trans.rows h h4' h3 h1⟩, fun ib jb hib hjb =>
      Trans.has h h4' h3 h1 hib hjb⟩

end

end EllB

end Bml
