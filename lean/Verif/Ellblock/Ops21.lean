import Verif.Ellblock.Ops20

/-!
# Block-ELLPACK: transposition in place, continued
-/

set_option linter.unusedSectionVars false

namespace Bml

namespace EllB

variable {R : Type} [CommRing R] {E : Prop}

section
variable {A0 A : EllB R} {L0 P U : Nat → BRow R} {nzt : Arr Nat}

/-- Both blocks exist. -/
theorem wp_exchange {s : TrSt R} {i j : Nat} (h : TrB A0 L0 s.A s.nzt P U) (hi : i < A0.NB)
    (hj : j < A0.NB) (hij : i ≠ j) {U' : BRow R} {b : Arr R} (hU : U i = U' ++ [(j, b)])
    {U1 U2 : BRow R} {w : Arr R} (hUj : U j = U1 ++ (i, w) :: U2)
    (hpos : s.pos1 = (P i).length + (U i).length) :
    (exchange i j ((P j).length + U1.length) s).wp E (TrPost A0 L0 i U'.length U) := by
  have hji : j ≠ i := Ne.symm hij
  have hs := h.same
  have hiA : i < s.A.NB := by rw [hs.NB]; exact hi
  have hjA : j < s.A.NB := by rw [hs.NB]; exact hj
  have hbsz : s.A.bsize.size = s.A.NB := h.part.bs_size
  have hp1 : s.pos1 - 1 = (P i).length + U'.length := by rw [hpos, hU]; simp
  have hlast : ((fun r => P r ++ U r) i)[(P i).length + U'.length]? = some (j, b) := by
    show (P i ++ U i)[(P i).length + U'.length]? = _
    rw [hU, List.getElem?_append_right (by simp)]
    simp
  have hpart : ((fun r => P r ++ U r) j)[(P j).length + U1.length]? = some (i, w) := by
    show (P j ++ U j)[(P j).length + U1.length]? = _
    rw [hUj, List.getElem?_append_right (by omega)]
    simp
  have hszb : A0.bsize.get i * A0.bsize.get j ≤ b.size :=
    h.sz i hi (j, b) (Or.inr (by rw [hU]; simp))
  have hszw : A0.bsize.get j * A0.bsize.get i ≤ w.size :=
    h.sz j hj (i, w) (Or.inr (by rw [hUj]; simp))
  have e1 : (s.A.bsize).read i = .ok (A0.bsize.get i) := by
    rw [Arr.read_ok (by rw [hbsz]; exact hiA), hs.bsize]
  have e2 : (s.A.bsize).read j = .ok (A0.bsize.get j) := by
    rw [Arr.read_ok (by rw [hbsz]; exact hjA), hs.bsize]
  unfold exchange
  simp only [ROWMAJOR]
  rw [hp1, h.part.block_eq hiA hlast, Res.bind_ok, h.part.block_eq hjA hpart, Res.bind_ok, e1,
    Res.bind_ok, e2, Res.bind_ok, Res.wp_bind]
  refine Res.wp_mono (wp_swapBlocks hszb (by rw [Nat.mul_comm]; exact hszw)) ?_
  rintro ⟨x, y⟩ ⟨hx, hy, tx, ty⟩
  simp only at hx hy tx ty ⊢
  obtain ⟨A1, f1, s1, n1, p1⟩ := h.part.putBlock hiA hlast x
  rw [f1, Res.bind_ok]
  have hset1 : ((fun r => P r ++ U r) i).set ((P i).length + U'.length) (j, x) =
      P i ++ (U' ++ [(j, x)]) := by
    show (P i ++ U i).set _ _ = _
    rw [hU, List.set_append_right _ _ (by omega)]
    simp
  rw [hset1] at p1
  have hj1 : j < A1.NB := by rw [s1.NB]; exact hjA
  have hi1 : i < A1.NB := by rw [s1.NB]; exact hiA
  obtain ⟨A2, f2, s2, n2, p2⟩ := p1.putBlock hj1 (jp := (P j).length + U1.length) (jb := i) (b := w)
    (by rw [upd_ne _ _ hji]; exact hpart) y
  rw [f2, Res.bind_ok, h.read_nzt hi, Res.bind_ok]
  have hset2 : (upd (fun r => P r ++ U r) i (P i ++ (U' ++ [(j, x)])) j).set
      ((P j).length + U1.length) (i, y) = P j ++ (U1 ++ (i, y) :: U2) := by
    rw [upd_ne _ _ hji]
    show (P j ++ U j).set _ _ = _
    rw [hUj, List.set_append_right _ _ (by omega)]
    simp
  rw [hset2] at p2
  have hi2 : i < A2.NB := by rw [s2.NB]; exact hi1
  have hj2 : j < A2.NB := by rw [s2.NB]; exact hj1
  -- swap in row `i`
  obtain ⟨z, W, hz, hset, hperm⟩ := Ell.swap_perm (P i) U' [] (j, x)
  obtain ⟨A3, f3, s3, n3, p3⟩ := p2.swap hi2 (p := (P i).length + U'.length) (x := (j, x))
    (q := (P i).length) (y := z)
    (by rw [upd_ne _ _ hij, upd_same, List.getElem?_append_right (by omega)]; simp)
    (by rw [upd_ne _ _ hij, upd_same]; exact hz)
  rw [f3, Res.bind_ok, h.read_nzt hj, Res.bind_ok]
  rw [upd_ne _ _ hij, upd_same, hset] at p3
  have hj3 : j < A3.NB := by rw [s3.NB]; exact hj2
  -- swap in row `j`
  obtain ⟨z', W', hz', hset', hperm'⟩ := Ell.swap_perm (P j) U1 U2 (i, y)
  obtain ⟨A4, f4, s4, n4, p4⟩ := p3.swap hj3 (p := (P j).length + U1.length) (x := (i, y))
    (q := (P j).length) (y := z')
    (by rw [upd_ne _ _ hji, upd_same, List.getElem?_append_right (by omega)]; simp)
    (by rw [upd_ne _ _ hji, upd_same]; exact hz')
  rw [f4, Res.bind_ok, Arr.write_ok _ (by rw [h.nzs]; exact hi), Res.bind_ok,
    Arr.read_ok (by show j < s.nzt.size; rw [h.nzs]; exact hj), Res.bind_ok,
    Arr.write_ok _ (by show j < s.nzt.size; rw [h.nzs]; exact hj), Res.bind_ok, Res.pure_eq,
    Res.wp_ok]
  rw [upd_ne _ _ hji, upd_same, hset'] at p4
  rw [List.append_nil] at hperm
  have hn4 : A4.nnzb = s.A.nnzb := by rw [n4, n3, n2, n1]
  -- ghost moves
  have hUp : (U i).Perm ((j, b) :: U') := by rw [hU]; exact (List.perm_append_singleton _ _)
  have hUjp : (U j).Perm ((i, w) :: (U1 ++ U2)) := by rw [hUj]; exact List.perm_middle
  have hg1 := h.ghost (U' := upd U i W) hi hUp (fun s hs => by rw [upd_ne _ _ hs])
    (by rw [upd_same]; exact hperm) ty
  have hg2 := hg1.move (U' := fun r => (upd (upd U i W) j W' r).map (gu A0.bsize.get r))
    (r := j) (c := i) (v := (gu A0.bsize.get j (i, w)).2) (W := (U1 ++ U2).map (gu A0.bsize.get j)) hj
    (by
      rw [upd_ne _ _ hji]
      exact hUjp.map (gu A0.bsize.get j))
    (fun s hs => by rw [upd_ne _ _ hs])
    (by rw [upd_same]; exact hperm'.map _)
  have hg3 : Ell.Ghost (R := Nat → R) A0.NB (fun r => (L0 r).map (gu A0.bsize.get r))
      (fun r => (upd (upd P j (P j ++ [(i, y)])) i (P i ++ [(j, x)]) r).map (gt A0.bsize.get r))
      (fun r => (upd (upd U i W) j W' r).map (gu A0.bsize.get r)) := by
    rw [map_upd (fun s l => List.map (gt A0.bsize.get s) l)]
    simp only [List.map_append, List.map_cons, List.map_nil, gt_of_TB tx]
    rw [upd_ne _ _ hij] at hg2
    exact hg2
  have hndi : (((j, b) :: U').map Prod.fst).Nodup := by
    have := h.g.und i hi
    rw [show Ell.cols ((U i).map (gu A0.bsize.get i)) = _ from fst_gu _ _ _] at this
    exact ((hUp.map Prod.fst).nodup_iff).1 this
  have hndj : (((i, w) :: (U1 ++ U2)).map Prod.fst).Nodup := by
    have := h.g.und j hj
    rw [show Ell.cols ((U j).map (gu A0.bsize.get j)) = _ from fst_gu _ _ _] at this
    exact ((hUjp.map Prod.fst).nodup_iff).1 this
  have hlen : ∀ r, r < A0.NB → (upd (upd P j (P j ++ [(i, y)])) i (P i ++ [(j, x)]) r ++
      upd (upd U i W) j W' r).length = (P r ++ U r).length := by
    intro r hr
    by_cases he : r = i
    · subst he
      rw [upd_same, upd_ne _ _ hij, upd_same, hU]
      simp only [List.length_append, hperm.length_eq, List.length_cons, List.length_nil]; omega
    · rw [upd_ne _ _ he]
      by_cases hj' : r = j
      · subst hj'
        rw [upd_same, upd_same, hUj]
        simp only [List.length_append, hperm'.length_eq, List.length_cons, List.length_nil]; omega
      · rw [upd_ne _ _ hj', upd_ne _ _ hj', upd_ne _ _ he]
  refine ⟨_, _, ⟨hs.trans (s1.trans (s2.trans (s3.trans s4))), hg3, ?_, ?_, p4.congr ?_,
    by rw [hn4]; exact h.ns, ?_, h.nzs, ?_⟩, ?_, ?_, ?_⟩
  · intro r hr c hc hcU
    by_cases he : r = i
    · subst he
      rw [upd_same] at hc
      rw [upd_ne _ _ hij, upd_same] at hcU
      have hcU' : c ∈ U'.map Prod.fst := (hperm.map Prod.fst).subset hcU
      simp only [List.map_append, List.map_cons, List.map_nil, List.mem_append,
        List.mem_singleton] at hc
      rcases hc with hc | hc
      · exact h.x r hr c hc (by rw [hU, List.map_append, List.mem_append]; exact Or.inl hcU')
      · subst hc; exact (List.nodup_cons.1 hndi).1 hcU'
    · rw [upd_ne _ _ he] at hc
      by_cases hj' : r = j
      · subst hj'
        rw [upd_same] at hc hcU
        have hcU' : c ∈ (U1 ++ U2).map Prod.fst := (hperm'.map Prod.fst).subset hcU
        simp only [List.map_append, List.map_cons, List.map_nil, List.mem_append,
          List.mem_singleton] at hc
        rcases hc with hc | hc
        · exact h.x r hr c hc ((hUjp.map Prod.fst).symm.subset (List.mem_cons_of_mem _ hcU'))
        · subst hc; exact (List.nodup_cons.1 hndj).1 hcU'
      · rw [upd_ne _ _ hj'] at hc
        rw [upd_ne _ _ hj', upd_ne _ _ he] at hcU
        exact h.x r hr c hc hcU
  · intro r hr p hp
    by_cases he : r = i
    · subst he
      rw [upd_same, upd_ne _ _ hij, upd_same, List.mem_append, List.mem_singleton] at hp
      rcases hp with (hp | rfl) | hp
      · exact h.sz r hr p (Or.inl hp)
      · simp only; rw [hx]; exact hszb
      · exact h.sz r hr p (Or.inr (by rw [hU]; exact List.mem_append_left _ (hperm.subset hp)))
    · rw [upd_ne _ _ he] at hp
      by_cases hj' : r = j
      · subst hj'
        rw [upd_same, upd_same, List.mem_append, List.mem_singleton] at hp
        rcases hp with (hp | rfl) | hp
        · exact h.sz r hr p (Or.inl hp)
        · simp only; rw [hy]; exact hszw
        · refine h.sz r hr p (Or.inr ?_)
          have := hperm'.subset hp
          rw [List.mem_append] at this
          rw [hUj, List.mem_append, List.mem_cons]
          rcases this with q | q
          · exact Or.inl q
          · exact Or.inr (Or.inr q)
      · rw [upd_ne _ _ hj', upd_ne _ _ hj', upd_ne _ _ he] at hp
        exact h.sz r hr p hp
  · intro r _
    by_cases hj' : r = j
    · subst hj'
      simp only [upd_same]
      rw [upd_ne _ _ hji, upd_same]; simp
    · rw [upd_ne _ _ hj']
      by_cases he : r = i
      · subst he
        simp only [upd_same]
        rw [upd_ne _ _ hj', upd_same]; simp
      · simp only [upd_ne _ _ he, upd_ne _ _ hj']
  · intro r hr
    rw [hn4, h.nz r hr, hlen r hr]
  · intro r hr
    by_cases hj' : r = j
    · subst hj'
      simp only [upd_same]
      rw [upd_ne _ _ hji, upd_ne _ _ hji, upd_same, h.nzg r hr]; simp
    · simp only [upd_ne _ _ hj']
      by_cases he : r = i
      · subst he; simp only [upd_same]; simp
      · simp only [upd_ne _ _ he, upd_ne _ _ hj']; exact h.nzg r hr
  · rw [upd_ne _ _ hij, upd_same]; exact hperm.length_eq
  · have := hlen i hi
    rw [List.length_append, List.length_append] at this
    rw [this]; exact hpos
  · intro r hr
    by_cases hj' : r = j
    · subst hj'; rw [hr] at hUj; simp at hUj
    · rw [upd_ne _ _ hj']
      by_cases he : r = i
      · subst he; rw [hr] at hU; simp at hU
      · rw [upd_ne _ _ he]; exact hr

/-- One step of the `while` loop. -/
theorem wp_transStep {s : TrSt R} {i n n2 : Nat} (hcap : SymFit L0 A0.NB A0.MB)
    (h : TrB A0 L0 s.A s.nzt P U) (hi : i < A0.NB) (hdone : ∀ r, r < i → U r = [])
    (hn : (U i).length = n + 1) (hpos : s.pos1 = (P i).length + (U i).length)
    (hn2 : ∀ r c, r < A0.NB → c < A0.NB → A0.bsize.get r * A0.bsize.get c ≤ n2) (junk : Nat → R) :
    (transStep n2 junk i s).wp E (TrPost A0 L0 i n U) := by
  have hne : U i ≠ [] := by intro hc; rw [hc] at hn; simp at hn
  obtain ⟨U', ⟨j, b⟩, hU⟩ : ∃ U' x, U i = U' ++ [x] :=
    ⟨(U i).dropLast, (U i).getLast hne, (List.dropLast_append_getLast hne).symm⟩
  have hn' : U'.length = n := by rw [hU] at hn; simpa using hn
  have hmem : (j, b) ∈ U i := by rw [hU]; simp
  have hj : j < A0.NB := (h.col hi hmem).1
  have hiA : i < s.A.NB := by rw [h.same.NB]; exact hi
  have hjA : j < s.A.NB := by rw [h.same.NB]; exact hj
  subst hn'
  have hp1 : s.pos1 - 1 = (P i).length + U'.length := by rw [hpos, hU]; simp
  have hlast : ((fun r => P r ++ U r) i)[s.pos1 - 1]? = some (j, b) := by
    show (P i ++ U i)[s.pos1 - 1]? = _
    rw [hp1, hU, List.getElem?_append_right (by simp)]
    simp
  unfold transStep
  simp only [ROWMAJOR]
  rw [h.part.index_eq hiA hlast, Res.bind_ok]
  rcases Nat.lt_trichotomy j i with hji | hji | hji
  · have hUj := hdone j hji
    have hno : i ∉ (U j).map Prod.fst := by rw [hUj]; simp
    rw [if_neg (by omega), if_pos hji]
    exact wp_moveBlock h hi hj (by omega) hU hno hpos (h.room hi hj hmem hno hcap) (hn2 i j hi hj) junk
  · subst hji
    rw [if_neg (by omega), if_neg (by omega)]
    exact wp_diagStep h hi hU hpos
  · have hlen : (P j ++ U j).length - (P j).length = (U j).length := by simp
    rw [if_pos hji, h.read_nnzb hj, Res.bind_ok, h.read_nzt hj, Res.bind_ok, hlen]
    rcases h.part.findSym_spec (i := i) hjA (U j) (P j) rfl with ⟨U1, U2, w, hUj, hf⟩ | ⟨hno, hf⟩
    · rw [hf, Res.bind_ok]
      exact wp_exchange h hi hj (by omega) hU hUj hpos
    · rw [hf, Res.bind_ok]
      exact wp_moveBlock h hi hj (by omega) hU hno hpos (h.room hi hj hmem hno hcap) (hn2 i j hi hj) junk

/-- Row `i` of the in-place transposition. -/
theorem wp_transRow {st : EllB R × Arr Nat} {i n2 : Nat} (hcap : SymFit L0 A0.NB A0.MB)
    (h : TrB A0 L0 st.1 st.2 P U) (hi : i < A0.NB) (hdone : ∀ r, r < i → U r = [])
    (hn2 : ∀ r c, r < A0.NB → c < A0.NB → A0.bsize.get r * A0.bsize.get c ≤ n2) (junk : Nat → R) :
    (transRow n2 junk i st).wp E (fun st' => ∃ P' U', TrB A0 L0 st'.1 st'.2 P' U' ∧
      ∀ r, r < i + 1 → U' r = []) := by
  unfold transRow
  rw [h.read_nnzb hi, Res.bind_ok, Res.wp_bind]
  have := wp_whileLoop (E := E) (cond := fun s : TrSt R => decide (s.nzt.get i < s.pos1))
    (body := transStep n2 junk i)
    (fun n s => ∃ P' U', TrB A0 L0 s.A s.nzt P' U' ∧ (U' i).length = n ∧
      s.pos1 = (P' i).length + (U' i).length ∧ ∀ r, r < i → U' r = [])
    (fun n s ⟨P', U', h', hn, hp, _⟩ => by
      simp only [decide_eq_true_eq]
      rw [h'.nzg i hi, hp, hn]; omega)
    (fun n s ⟨P', U', h', hn, hp, hd⟩ => by
      refine Res.wp_mono (wp_transStep hcap h' hi hd hn hp hn2 junk) ?_
      rintro s' ⟨P2, U2, h2, hn2, hp2, hd2⟩
      exact ⟨P2, U2, h2, hn2, hp2, fun r hr => hd2 r (hd r hr)⟩)
    (P i ++ U i).length (U i).length ⟨st.1, st.2, (P i ++ U i).length⟩ (by simp)
    ⟨P, U, h, rfl, by simp, hdone⟩
  refine Res.wp_mono this ?_
  rintro s' ⟨P2, U2, h2, hn2, hp2, hd2⟩
  rw [Res.pure_eq, Res.wp_ok]
  refine ⟨P2, U2, h2, fun r hr => ?_⟩
  by_cases he : r = i
  · subst he; exact List.length_eq_zero_iff.1 hn2
  · exact hd2 r (by omega)

end

section
variable {A : EllB R} {N : Nat} {L : Nat → BRow R} {a : Spec.Mat R}

/-- At most `MB` blocks in the union of block row and block column of the same number. -/
def SymColsFit (A : EllB R) : Prop :=
  ∀ j, j < A.NB → ∃ S : Finset Nat, S.card ≤ A.MB ∧ ∀ c, c < A.NB → (A.Has j c ∨ A.Has c j) → c ∈ S

/-- **In-place transposition**: if no row ever needs more than `MB` blocks, it terminates, and the
result represents the transposed matrix, with the transposed block pattern. -/
theorem Rows.transposeInPlace_spec (h : A.Rows N L a) (hcap : A.SymColsFit) (junk : Nat → R) :
    ∃ B, transposeInPlace junk A = .ok B ∧ Same A B ∧ (∃ LB, B.Rows N LB (Spec.transpose a)) ∧
      ∀ ib jb, ib < A.NB → jb < A.NB → (B.Has jb ib ↔ A.Has ib jb) := by
  have hfit : SymFit L A.NB A.MB := by
    intro j hj
    obtain ⟨S, hS, hm⟩ := hcap j hj
    refine ⟨S, hS, fun c hc hor => hm c hc ?_⟩
    rw [h.has_iff hj, h.has_iff hc]
    exact hor
  have h0 : TrB A L A (⟨A.NB, fun _ => 0⟩ : Arr Nat) (fun _ => []) L := by
    refine ⟨⟨rfl, rfl, rfl, rfl, rfl⟩, ⟨?_, ?_, ?_, ?_, ?_, ?_⟩, ?_, ?_, ?_, h.is.nz_size, ?_, rfl, ?_⟩
    · intro r _; simp [Ell.cols]
    · intro r hr
      rw [show Ell.cols ((L r).map (gu A.bsize.get r)) = _ from fst_gu _ _ _]
      exact (h.good r hr).nodup
    · intro r _ c v hc; simp at hc
    · intro r hr c v hc
      refine ⟨?_, hc⟩
      obtain ⟨p, hp, he⟩ := List.mem_map.1 hc
      have := (h.good r hr).lt p hp
      rw [show c = p.1 from (congrArg Prod.fst he).symm]
      exact this
    · intro r _ c v hc; exact Or.inl hc
    · intro r _ c _ hc; simp [Ell.cols] at hc
    · intro r _ c hc; simp at hc
    · rintro r hr p (hp | hp)
      · simp at hp
      · exact (h.good r hr).size p hp
    · exact h.is.part.congr (fun r _ => by simp)
    · intro r hr; rw [h.is.nz r hr]; simp
    · intro r _; rfl
  obtain ⟨m, em, hm⟩ := maxBsize_spec h.is.bs_size
  have hn2 : ∀ r c, r < A.NB → c < A.NB → A.bsize.get r * A.bsize.get c ≤ m * m :=
    fun r c hr hc => Nat.mul_le_mul (hm r hr) (hm c hc)
  have hwp : (transposeInPlace junk A).wp False (fun B => ∃ P U : Nat → BRow R, ∃ nzt,
      TrB A L B nzt P U ∧ ∀ r, r < A.NB → U r = []) := by
    unfold transposeInPlace
    rw [em, Res.bind_ok, Res.wp_bind]
    have := wp_loop' (E := False) (n := A.NB)
      (s := ((A, (⟨A.NB, fun _ => 0⟩ : Arr Nat)) : EllB R × Arr Nat)) (f := transRow (m * m) junk)
      (I := fun i st => ∃ P U, TrB A L st.1 st.2 P U ∧ ∀ r, r < i → U r = [])
      (Q := fun st => ∃ P U, TrB A L st.1 st.2 P U ∧ ∀ r, r < A.NB → U r = [])
      ⟨_, _, h0, by intro r hr; omega⟩
      (fun i hi st ⟨P, U, h, hd⟩ => wp_transRow hfit h hi hd hn2 junk)
      (fun st h => h)
    refine Res.wp_mono this ?_
    rintro ⟨B, nzt⟩ ⟨P, U, h, hd⟩
    exact ⟨P, U, nzt, h, hd⟩
  obtain ⟨B, hB, P, U, nzt, ht, hd⟩ := Res.wp_exists hwp
  have hs := ht.same
  have hIs : B.Is P := by
    refine (ht.part.congr (L' := P) (fun r hr => ?_)).is (by rw [ht.ns, hs.NB]) ?_
    · rw [hd r (by rw [← hs.NB]; exact hr)]; simp
    · intro r hr
      have hr' : r < A.NB := by rw [← hs.NB]; exact hr
      rw [ht.nz r hr', hd r hr']; simp
  have hT : Trans A.bsize.get A.NB (fun c jb b => c < A.NB ∧ (jb, b) ∈ L c) P := by
    refine ⟨?_, ?_, ?_⟩
    · intro r hr
      have := ht.g.pnd r hr
      rwa [show Ell.cols ((P r).map (gt A.bsize.get r)) = _ from fst_gt _ _ _] at this
    · intro r c b' hr hm
      obtain ⟨hc, hm2⟩ := ht.g.ps r hr _ _ (List.mem_map.2 ⟨_, hm, rfl⟩)
      obtain ⟨⟨r', b⟩, hmb, he⟩ := List.mem_map.1 hm2
      obtain ⟨he1, he2⟩ := Prod.mk.injEq .. |>.mp he
      simp only at he1 he2 hc hmb
      subst he1
      refine ⟨b, ⟨hc, hmb⟩, ?_, ?_⟩
      · have := ht.sz r' hr (c, b') (Or.inl hm)
        rw [Nat.mul_comm]; exact this
      · intro ii jj hii hjj
        have hk : ii * A.bsize.get r' + jj < A.bsize.get c * A.bsize.get r' := addr_lt hii hjj
        have := congrFun he2 (ii * A.bsize.get r' + jj)
        rw [if_pos hk, if_pos hk] at this
        rw [this]
        congr 1
        have h0 : 0 < A.bsize.get r' := by omega
        rw [Nat.mul_comm ii, Nat.mul_add_mod, Nat.mod_eq_of_lt hjj, Nat.mul_add_div h0,
          Nat.div_eq_of_lt hjj, Nat.add_zero]
    · rintro r c b hr ⟨hc, hm⟩
      rcases ht.g.cpl c hc _ _ (List.mem_map.2 ⟨_, hm, rfl⟩) with h' | h'
      · rw [hd c hc] at h'; simp at h'
      · obtain ⟨p, hp, he⟩ := List.mem_map.1 h'
        exact List.mem_map.2 ⟨p, hp, congrArg Prod.fst he⟩
  exact ⟨B, hB, hs, ⟨P, Trans.rows h hT hIs hs⟩, fun ib jb hib hjb => Trans.has h hT hIs hs hib hjb⟩

end

end EllB

end Bml
