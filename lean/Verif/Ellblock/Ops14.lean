import Verif.Ellblock.Ops13
import Verif.Ellblock.Ops7

/-!
# Block-ELLPACK: products, one row
-/

set_option linter.unusedSectionVars false

namespace Bml

namespace EllB

variable {R : Type} {E : Prop}

section
variable [CommRing R]

/-! ## Products of blocks -/

/-- The element at position `k` of the product of a block with `bj` columns and a block with `bk`
columns. -/
def blkDot (bj bk : Nat) (v w : Nat → R) (k : Nat) : R :=
  ∑ q ∈ Finset.range bj, v (k / bk * bj + q) * w (q * bk + k % bk)

theorem blkDot_flat {bj bk : Nat} (v w : Nat → R) {ii jj : Nat} (hjj : jj < bk) :
    blkDot bj bk v w (ii * bk + jj) =
      ∑ q ∈ Finset.range bj, v (ii * bj + q) * w (q * bk + jj) := by
  unfold blkDot
  have h1 : (ii * bk + jj) / bk = ii := by
    rw [Nat.mul_comm, Nat.mul_add_div (by omega), Nat.div_eq_of_lt hjj, Nat.add_zero]
  have h2 : (ii * bk + jj) % bk = jj := by
    rw [Nat.mul_comm, Nat.mul_add_mod, Nat.mod_eq_of_lt hjj]
  rw [h1, h2]

theorem blkDot_add (bj bk : Nat) (v w w' : Nat → R) (k : Nat) :
    blkDot bj bk v (fun q => w q + w' q) k = blkDot bj bk v w k + blkDot bj bk v w' k := by
  unfold blkDot
  rw [← Finset.sum_add_distrib]
  exact Finset.sum_congr rfl fun q _ => mul_add _ _ _

theorem blkDot_zero (bj bk : Nat) (v : Nat → R) (k : Nat) : blkDot bj bk v (fun _ => 0) k = 0 := by
  unfold blkDot
  simp

theorem dot_eq {a b : Arr R} {o o' : Nat} : ∀ n, 0 < n → o + n ≤ a.size → o' + n ≤ b.size →
    dot a b o o' n = .ok (∑ q ∈ Finset.range n, a.get (o + q) * b.get (o' + q))
  | 0, h, _, _ => absurd h (lt_irrefl _)
  | 1, _, h1, h2 => by
    unfold dot
    rw [Arr.read_ok (by omega), Res.bind_ok, Arr.read_ok (by omega), Res.bind_ok]
    simp [Res.pure_eq]
  | n + 2, _, h1, h2 => by
    unfold dot
    rw [dot_eq (n + 1) (by omega) (by omega) (by omega), Res.bind_ok, Arr.read_ok (by omega),
      Res.bind_ok, Arr.read_ok (by omega), Res.bind_ok, Res.pure_eq,
      Finset.sum_range_succ (n := n + 1)]

theorem wp_transBlock {bj bk : Nat} {w t : Arr R} (hw : bj * bk ≤ w.size) (ht : bj * bk ≤ t.size) :
    (transBlock bj bk w t).wp E (fun t' => t'.size = t.size ∧
      ∀ ii jj, ii < bj → jj < bk → t'.get (jj * bj + ii) = w.get (ii * bk + jj)) := by
  unfold transBlock
  refine wp_loop2 (fun i j (t' : Arr R) => t'.size = t.size ∧
    ∀ ii jj, ii < bj → jj < bk → (ii < i ∨ (ii = i ∧ jj < j)) →
      t'.get (jj * bj + ii) = w.get (ii * bk + jj)) ⟨rfl, by simp⟩ ?_ ?_ ?_
  · rintro i j hi hj t' ⟨h1, h2⟩
    simp only [Res.wp_bind, Arr.wp_read, Arr.wp_write]
    have a1 : i * bk + j < bj * bk := addr_lt hi hj
    have a2 : j * bj + i < bk * bj := addr_lt hj hi
    rw [Nat.mul_comm bk bj] at a2
    refine ⟨by omega, by omega, h1, fun ii jj hii hjj hc => ?_⟩
    by_cases he : ii = i ∧ jj = j
    · obtain ⟨rfl, rfl⟩ := he; rw [upd_same]
    · rw [upd_ne]
      · exact h2 ii jj hii hjj (by omega)
      · intro hh
        obtain ⟨rfl, rfl⟩ := addr_inj hii hi hh
        exact he ⟨rfl, rfl⟩
  · rintro i t' hi ⟨h1, h2⟩
    exact ⟨h1, fun ii jj hii hjj hc => h2 ii jj hii hjj (by omega)⟩
  · rintro t' ⟨h1, h2⟩
    exact ⟨h1, fun ii jj hii hjj => h2 ii jj hii hjj (Or.inl hii)⟩

theorem wp_multBlock {ld bi bk : Nat} {a b x : Arr R} (h0 : 0 < ld) (h6 : ld ≤ 6)
    (ha : bi * ld ≤ a.size) (hb : bk * ld ≤ b.size) (hx : bi * bk ≤ x.size) {w : Nat → R}
    (hw : ∀ q jj, q < ld → jj < bk → b.get (jj * ld + q) = w (q * bk + jj)) :
    (multBlock a b ld bi bk x).wp E (fun x' => x'.size = x.size ∧
      ∀ k, k < bi * bk → x'.get k = x.get k + blkDot ld bk a.get w k) := by
  unfold multBlock
  rw [if_neg (by omega)]
  refine wp_loop2 (fun i j (x' : Arr R) => x'.size = x.size ∧
    ∀ ii jj, ii < bi → jj < bk → x'.get (ii * bk + jj) = if ii < i ∨ (ii = i ∧ jj < j)
      then x.get (ii * bk + jj) + blkDot ld bk a.get w (ii * bk + jj)
      else x.get (ii * bk + jj)) ⟨rfl, by simp⟩ ?_ ?_ ?_
  · rintro i j hi hj x' ⟨h1, h2⟩
    have a1 : i * bk + j < bi * bk := addr_lt hi hj
    have a2 : ld * i + ld ≤ a.size := by
      refine le_trans ?_ ha
      rw [← Nat.mul_succ, Nat.mul_comm]
      exact Nat.mul_le_mul_right _ hi
    have a3 : j * ld + ld ≤ b.size := by
      refine le_trans ?_ hb
      rw [← Nat.succ_mul]
      exact Nat.mul_le_mul_right _ hj
    simp only [Res.wp_bind, Arr.wp_read, dot_eq ld h0 a2 a3, Res.wp_ok, Arr.wp_write]
    refine ⟨by omega, by omega, h1, fun ii jj hii hjj => ?_⟩
    by_cases he : ii = i ∧ jj = j
    · obtain ⟨rfl, rfl⟩ := he
      rw [upd_same, if_pos (by omega), h2 ii jj hii hjj, if_neg (by omega), blkDot_flat _ _ hjj]
      congr 1
      refine Finset.sum_congr rfl fun q hq => ?_
      rw [hw q jj (by simpa using hq) hjj, Nat.mul_comm ld ii]
    · rw [upd_ne]
      · rw [h2 ii jj hii hjj]
        congr 1
        rw [eq_iff_iff]
        omega
      · intro hh
        obtain ⟨rfl, rfl⟩ := addr_inj hjj hj hh
        exact he ⟨rfl, rfl⟩
  · rintro i x' hi ⟨h1, h2⟩
    refine ⟨h1, fun ii jj hii hjj => ?_⟩
    rw [h2 ii jj hii hjj]
    congr 1
    rw [eq_iff_iff]
    omega
  · rintro x' ⟨h1, h2⟩
    refine ⟨h1, fun k hk => ?_⟩
    have hbk : 0 < bk := by
      rcases Nat.eq_zero_or_pos bk with h | h
      · subst h; omega
      · exact h
    have e : k = k / bk * bk + k % bk := by
      rw [Nat.mul_comm]; exact (Nat.div_add_mod k bk).symm
    have h3 := h2 (k / bk) (k % bk) (by
      rw [Nat.div_lt_iff_lt_mul hbk]; exact hk) (Nat.mod_lt _ hbk)
    rw [← e, if_pos (Or.inl (by rw [Nat.div_lt_iff_lt_mul hbk]; exact hk))] at h3
    exact h3

/-! ## One row -/

/-- What the blocks `l` of a row of the first factor contribute to column block `kb` of the product,
at position `k`. -/
def mulVal (bs : Nat → Nat) (L' : Nat → BRow R) (l : BRow R) (kb k : Nat) : R :=
  (l.map fun p => blkDot (bs p.1) (bs kb) p.2.get (val (L' p.1) kb) k).sum

/-- The column blocks that take part in a row of the product, in the order of their first
occurrence. -/
def mulCols (L' : Nat → BRow R) (l : BRow R) : List Nat :=
  l.foldl (fun J p => ((L' p.1).map Prod.fst).foldl join J) []

theorem mulCols_snoc (L' : Nat → BRow R) (l : BRow R) (p : Nat × Arr R) :
    mulCols L' (l ++ [p]) = ((L' p.1).map Prod.fst).foldl join (mulCols L' l) := by
  unfold mulCols
  rw [List.foldl_append]; rfl

theorem mulVal_snoc (bs : Nat → Nat) (L' : Nat → BRow R) (l : BRow R) (p : Nat × Arr R)
    (kb k : Nat) : mulVal bs L' (l ++ [p]) kb k =
      mulVal bs L' l kb k + blkDot (bs p.1) (bs kb) p.2.get (val (L' p.1) kb) k := by
  unfold mulVal
  rw [List.map_append, List.sum_append]; simp

theorem mem_mulCols {L' : Nat → BRow R} {l : BRow R} {c : Nat} :
    c ∈ mulCols L' l ↔ ∃ p ∈ l, c ∈ (L' p.1).map Prod.fst := by
  have : ∀ (l : BRow R) (J : List Nat), c ∈ l.foldl (fun J p => ((L' p.1).map Prod.fst).foldl join J) J ↔
      c ∈ J ∨ ∃ p ∈ l, c ∈ (L' p.1).map Prod.fst := by
    intro l
    induction l with
    | nil => simp
    | cons p l ih =>
      intro J
      rw [List.foldl_cons, ih, mem_foldl_join, or_assoc]
      simp only [List.mem_cons, exists_eq_or_imp]
  unfold mulCols
  rw [this l []]
  simp only [List.not_mem_nil, false_or]

theorem wp_accumProd {A B : EllB R} {L L' : Nat → BRow R} (hI : A.Is L) (hB : B.Is L')
    (hNB : B.NB = A.NB) {bs : Arr Nat} (hbs : bs.size = A.NB) {ib : Nat} (hib : ib < A.NB)
    (hg : GoodRow A.NB bs.get ib (L ib))
    (hg' : ∀ jb, jb < A.NB → GoodRow A.NB bs.get jb (L' jb))
    (h6 : ∀ jb, jb < A.NB → 0 < bs.get jb ∧ bs.get jb ≤ 6) {n2 : Nat}
    (hn2 : ∀ ib jb, ib < A.NB → jb < A.NB → bs.get ib * bs.get jb ≤ n2) (junk : Nat → R)
    {s : BScr R} (hc : s.Clean A.NB n2) :
    (accumProd bs n2 junk A B ib s).wp E (fun st =>
      st.1.Holds A.NB n2 (fun jb => bs.get ib * bs.get jb) (mulCols L' (L ib))
        (mulVal bs.get L' (L ib)) ∧ st.2 = (mulCols L' (L ib)).length) := by
  unfold accumProd
  have hib' : ib < bs.size := by rw [hbs]; exact hib
  simp only
  rw [hI.eachIdx_eq hib (s, 0, (⟨n2, junk⟩ : Arr R)) _ (fun p (st : BScr R × Nat × Arr R) =>
    forList (L' p.1) st (fun q (st : BScr R × Nat × Arr R) => do
      let (s, l) ← touch (ib + 1) q.1 n2 (st.1, st.2.1)
      let t ← transBlock (bs.get p.1) (bs.get q.1) q.2 st.2.2
      let s ← onBuf q.1 (multBlock p.2 t (bs.get p.1) (bs.get ib) (bs.get q.1)) s
      pure (s, l, t)))]
  · rw [Res.wp_bind]
    refine wp_forList (fun pre (st : BScr R × Nat × Arr R) =>
      st.1.Holds A.NB n2 (fun jb => bs.get ib * bs.get jb) (mulCols L' pre)
        (mulVal bs.get L' pre) ∧ st.2.1 = (mulCols L' pre).length ∧ st.2.2.size = n2) ?_ ?_ ?_
    · exact ⟨(hc.holds _).congr (by simp [mulVal]), rfl, rfl⟩
    · rintro pre p post hsp st ⟨h1, h2, h3⟩
      have hp : p ∈ L ib := by rw [hsp]; simp
      have hpb := hg.lt p hp
      have hgp := hg' p.1 hpb
      refine wp_forList (fun pre' (st : BScr R × Nat × Arr R) =>
        st.1.Holds A.NB n2 (fun jb => bs.get ib * bs.get jb)
          ((pre'.map Prod.fst).foldl join (mulCols L' pre))
          (fun kb k => mulVal bs.get L' pre kb k +
            blkDot (bs.get p.1) (bs.get kb) p.2.get (val pre' kb) k) ∧
        st.2.1 = ((pre'.map Prod.fst).foldl join (mulCols L' pre)).length ∧ st.2.2.size = n2)
        ?_ ?_ ?_
      · refine ⟨h1.congr fun kb k => ?_, h2, h3⟩
        have : val ([] : BRow R) kb = fun _ => 0 := rfl
        rw [this, blkDot_zero, add_zero]
      · rintro pre' q post' hsp' ⟨s', l, t⟩ ⟨k1, k2, k3⟩
        simp only at k1 k2 k3 ⊢
        subst k2
        have hq : q ∈ L' p.1 := by rw [hsp']; simp
        have hqb := hgp.lt q hq
        have hqs := hgp.size q hq
        rw [Res.wp_bind]
        refine Res.wp_mono (wp_touch k1 (by omega) hqb (hn2 ib q.1 hib hqb) (le_refl _)) ?_
        rintro ⟨s2, l2⟩ ⟨m1, m2⟩
        simp only at m1 m2 ⊢
        rw [Res.wp_bind]
        refine Res.wp_mono (wp_transBlock hqs (by rw [k3]; exact hn2 _ _ hpb hqb)) ?_
        rintro t' ⟨r1, r2⟩
        rw [Res.wp_bind]
        refine Res.wp_mono (wp_onBuf m1 (mem_join.2 (Or.inr rfl))
          (blkDot (bs.get p.1) (bs.get q.1) p.2.get q.2.get) ?_) ?_
        · intro x hx hv
          refine Res.wp_mono (wp_multBlock (h6 _ hpb).1 (h6 _ hpb).2 (hg.size p hp)
            (by rw [r1, k3, Nat.mul_comm]; exact hn2 _ _ hpb hqb)
            (by rw [hx]; exact hn2 _ _ hib hqb) (w := q.2.get) r2) ?_
          rintro x' ⟨w1, w2⟩
          exact ⟨w1.trans hx, fun k hk => by rw [w2 k hk, hv k hk]⟩
        · rintro s3 h3'
          rw [Res.pure_eq, Res.wp_ok, List.map_append, List.foldl_append]
          refine ⟨h3'.congr fun kb k => ?_, m2, r1.trans k3⟩
          have ev : val (pre' ++ [q]) kb = fun z => val pre' kb z + if q.1 = kb then q.2.get z else 0 := by
            funext z
            rw [val_append, val_cons]
            simp [val_nil]
          rw [ev, blkDot_add, add_assoc]
          congr 2
          by_cases hh : q.1 = kb
          · subst hh; simp
          · simp only [if_neg hh]
            exact blkDot_zero _ _ _ _
      · rintro st' ⟨k1, k2, k3⟩
        rw [mulCols_snoc]
        exact ⟨k1.congr fun kb k => mulVal_snoc _ _ _ _ _ _, k2, k3⟩
    · rintro st ⟨h1, h2, -⟩
      rw [Res.pure_eq, Res.wp_ok]
      exact ⟨h1, h2⟩
  · intro jp jb b st hs
    have hjb : jb < A.NB := hg.lt (jb, b) (List.mem_of_getElem? hs)
    rw [hI.block_eq hib hs, Res.bind_ok, Arr.read_ok hib', Res.bind_ok,
      Arr.read_ok (by rw [hbs]; exact hjb), Res.bind_ok]
    refine hB.eachIdx_eq (by rw [hNB]; exact hjb) st _ _ ?_
    rintro kp kb w ⟨s', l, t⟩ hs'
    have hkb : kb < A.NB := (hg' jb hjb).lt (kb, w) (List.mem_of_getElem? hs')
    simp only
    congr 1
    funext sl
    rw [hB.block_eq (by rw [hNB]; exact hjb) hs', Res.bind_ok,
      Arr.read_ok (by rw [hbs]; exact hkb), Res.bind_ok]

end

end EllB

end Bml
