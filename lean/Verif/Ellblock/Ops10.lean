import Verif.Ellblock.Model3
import Verif.Ellblock.Ops9

/-!
# Block-ELLPACK: the work space of sums and products
-/

set_option linter.unusedSectionVars false

namespace Bml

namespace BScr

variable {R : Type}

/-- No column block is marked. -/
structure Clean (NB n2 : Nat) (s : BScr R) : Prop where
  szx : s.x.size = NB
  szi : s.ix.size = NB
  szj : s.jx.size = NB
  buf : ∀ jb, jb < NB → (s.x.get jb).size = n2
  mark : ∀ jb, jb < NB → s.ix.get jb = 0

/-- The column blocks `J` are marked, their buffers hold `v`, as far as the size `w` of the block
goes. -/
structure Holds [Zero R] (NB n2 : Nat) (w : Nat → Nat) (s : BScr R) (J : List Nat)
    (v : Nat → Nat → R) : Prop where
  szx : s.x.size = NB
  szi : s.ix.size = NB
  szj : s.jx.size = NB
  buf : ∀ jb, jb < NB → (s.x.get jb).size = n2
  nodup : J.Nodup
  lt : ∀ jb ∈ J, jb < NB
  jx : ∀ k jb, J[k]? = some jb → s.jx.get k = jb
  mark : ∀ jb, jb < NB → (s.ix.get jb = 0 ↔ jb ∉ J)
  val : ∀ jb ∈ J, ∀ k, k < w jb → (s.x.get jb).get k = v jb k
  out : ∀ jb, jb ∉ J → ∀ k, v jb k = 0

theorem Clean.holds [Zero R] {NB n2 : Nat} {s : BScr R} (h : s.Clean NB n2) (w : Nat → Nat) :
    s.Holds NB n2 w [] (fun _ _ => 0) :=
  ⟨h.szx, h.szi, h.szj, h.buf, List.nodup_nil, by simp, by simp,
    fun jb hjb => by simp [h.mark jb hjb], by simp, fun _ _ _ => rfl⟩

theorem clean_clearScr [Zero R] (NB n2 : Nat) : (EllB.clearScr NB n2 : BScr R).Clean NB n2 :=
  ⟨rfl, rfl, rfl, fun _ _ => rfl, fun _ _ => rfl⟩

theorem Holds.congr [Zero R] {NB n2 : Nat} {w : Nat → Nat} {s : BScr R} {J : List Nat}
    {v v' : Nat → Nat → R} (h : s.Holds NB n2 w J v) (hv : ∀ jb k, v' jb k = v jb k) :
    s.Holds NB n2 w J v' := by
  have : v' = v := by funext jb k; exact hv jb k
  rw [this]; exact h

theorem Holds.length_le [Zero R] {NB n2 : Nat} {w : Nat → Nat} {s : BScr R} {J : List Nat}
    {v : Nat → Nat → R} (h : s.Holds NB n2 w J v) : J.length ≤ NB := by
  have h2 : J.toFinset ⊆ Finset.range NB := by
    intro a ha
    simp only [List.mem_toFinset] at ha
    simpa using h.lt a ha
  have h3 := Finset.card_le_card h2
  rw [List.toFinset_card_of_nodup h.nodup] at h3
  simpa using h3

end BScr

namespace EllB

variable {R : Type} {E : Prop}

/-- A column is added to a list of columns at its first occurrence. -/
def join (J : List Nat) (c : Nat) : List Nat := if c ∈ J then J else J ++ [c]

theorem mem_join {J : List Nat} {c x : Nat} : x ∈ join J c ↔ x ∈ J ∨ x = c := by
  unfold join
  by_cases h : c ∈ J
  · rw [if_pos h]
    constructor
    · exact Or.inl
    · rintro (h' | rfl)
      · exact h'
      · exact h
  · rw [if_neg h]; simp

theorem join_nodup {J : List Nat} {c : Nat} (h : J.Nodup) : (join J c).Nodup := by
  unfold join
  by_cases hc : c ∈ J
  · rw [if_pos hc]; exact h
  · rw [if_neg hc, List.nodup_append]
    refine ⟨h, by simp, ?_⟩
    intro a ha b hb
    simp only [List.mem_singleton] at hb
    subst hb
    rintro rfl
    exact hc ha

section
variable [CommRing R]

open BScr

theorem wp_touch {NB n2 : Nat} {w : Nat → Nat} {s : BScr R} {J : List Nat} {v : Nat → Nat → R}
    (h : s.Holds NB n2 w J v) {mark jb n : Nat} (hm : mark ≠ 0) (hjb : jb < NB) (hn : w jb ≤ n)
    (hn2 : n ≤ n2) :
    (touch mark jb n (s, J.length)).wp E (fun st => st.1.Holds NB n2 w (join J jb) v ∧
      st.2 = (join J jb).length) := by
  unfold touch
  have hi : jb < s.ix.size := by rw [h.szi]; exact hjb
  have hx : jb < s.x.size := by rw [h.szx]; exact hjb
  simp only [Res.wp_bind, Arr.wp_read]
  refine ⟨hi, ?_⟩
  by_cases hJ : jb ∈ J
  · have ht : s.ix.get jb ≠ 0 := fun e => (h.mark jb hjb).1 e hJ
    rw [if_neg ht, Res.pure_eq, Res.wp_ok]
    unfold join
    rw [if_pos hJ]
    exact ⟨h, rfl⟩
  · have ht : s.ix.get jb = 0 := (h.mark jb hjb).2 hJ
    have hz : zeroBuf n (s.x.get jb) =
        .ok ⟨(s.x.get jb).size, fun k => if k < n then 0 else (s.x.get jb).get k⟩ :=
      if_pos (by rw [h.buf jb hjb]; exact hn2)
    have hnd : (join J jb).Nodup := join_nodup h.nodup
    have hj : join J jb = J ++ [jb] := if_neg hJ
    have hlen : J.length < NB := by
      have h2 : (join J jb).toFinset ⊆ Finset.range NB := by
        intro a ha
        simp only [List.mem_toFinset] at ha
        rcases mem_join.1 ha with h' | rfl
        · simpa using h.lt a h'
        · simpa using hjb
      have h3 := Finset.card_le_card h2
      rw [List.toFinset_card_of_nodup hnd, hj] at h3
      simp at h3
      omega
    have hl : J.length < s.jx.size := by rw [h.szj]; exact hlen
    rw [if_pos ht]
    simp only [Res.wp_bind, Arr.wp_read, hx, true_and, hz, Res.wp_ok, Arr.wp_write, hi, hl,
      Res.pure_eq]
    rw [hj]
    refine ⟨⟨h.szx, h.szi, h.szj, ?_, hj ▸ hnd, ?_, ?_, ?_, ?_, ?_⟩, by simp⟩
    · intro k hk
      simp only
      by_cases hkj : k = jb
      · subst hkj; rw [upd_same]; exact h.buf k hk
      · rw [upd_ne _ _ hkj]; exact h.buf k hk
    · intro k hk
      rcases List.mem_append.1 hk with hk | hk
      · exact h.lt k hk
      · rw [List.mem_singleton.1 hk]; exact hjb
    · intro k c hk
      simp only
      by_cases hkl : k = J.length
      · subst hkl
        rw [upd_same]
        simpa using hk
      · rw [upd_ne _ _ hkl]
        rw [List.getElem?_append_left] at hk
        · exact h.jx k c hk
        · have := (List.getElem?_eq_some_iff.1 hk).1
          simp at this
          omega
    · intro k hk
      simp only
      by_cases hkj : k = jb
      · subst hkj; simp [hm]
      · rw [upd_ne _ _ hkj, h.mark k hk]
        simp [hkj]
    · intro k hk q hq
      simp only
      by_cases hkj : k = jb
      · subst hkj
        rw [upd_same]
        simp only
        rw [if_pos (by omega), h.out k hJ]
      · rw [upd_ne _ _ hkj]
        refine h.val k ?_ q hq
        simpa [hkj] using hk
    · intro k hk
      exact h.out k (fun hh => hk (List.mem_append_left _ hh))

theorem wp_onBuf {NB n2 : Nat} {w : Nat → Nat} {s : BScr R} {J : List Nat} {v : Nat → Nat → R}
    (h : s.Holds NB n2 w J v) {jb : Nat} (hJ : jb ∈ J) {f : Arr R → Res (Arr R)} (d : Nat → R)
    (hf : ∀ x : Arr R, x.size = n2 → (∀ k, k < w jb → x.get k = v jb k) →
      (f x).wp E (fun x' => x'.size = n2 ∧ ∀ k, k < w jb → x'.get k = v jb k + d k)) :
    (onBuf jb f s).wp E (fun s' =>
      s'.Holds NB n2 w J (fun c k => v c k + if jb = c then d k else 0)) := by
  unfold onBuf
  have hjb := h.lt jb hJ
  have hx : jb < s.x.size := by rw [h.szx]; exact hjb
  simp only [Res.wp_bind, Arr.wp_read]
  refine ⟨hx, ?_⟩
  refine Res.wp_mono (hf (s.x.get jb) (h.buf jb hjb) (h.val jb hJ)) ?_
  rintro x' ⟨h1, h2⟩
  simp only [Arr.wp_write, hx, true_and, Res.pure_eq, Res.wp_ok]
  refine ⟨h.szx, h.szi, h.szj, ?_, h.nodup, h.lt, h.jx, h.mark, ?_, ?_⟩
  · intro k hk
    simp only
    by_cases hkj : k = jb
    · subst hkj; rw [upd_same]; exact h1
    · rw [upd_ne _ _ hkj]; exact h.buf k hk
  · intro c hc k hk
    simp only
    by_cases hkj : c = jb
    · subst hkj; rw [upd_same, if_pos rfl]; exact h2 k hk
    · rw [upd_ne _ _ hkj, if_neg (Ne.symm hkj), add_zero]; exact h.val c hc k hk
  · intro c hc k
    rw [if_neg (by rintro rfl; exact hc hJ), add_zero]
    exact h.out c hc k

/-- `x[kk] = x[kk] + c * v[kk]`. -/
theorem wp_axpyBuf {n : Nat} (c : R) {v x : Arr R} (hv : n ≤ v.size) (hx : n ≤ x.size) :
    (axpyBuf n c v x).wp E (fun x' => x'.size = x.size ∧
      (∀ k, k < n → x'.get k = x.get k + c * v.get k)) := by
  unfold axpyBuf
  refine wp_loop' (fun m (x' : Arr R) => x'.size = x.size ∧
    ∀ k, x'.get k = if k < m then x.get k + c * v.get k else x.get k) ⟨rfl, by simp⟩ ?_ ?_
  · rintro m hm x' ⟨h1, h2⟩
    simp only [Res.wp_bind, Arr.wp_read, Arr.wp_write]
    refine ⟨by omega, by omega, by omega, h1, fun k => ?_⟩
    by_cases hk : k = m
    · subst hk
      rw [upd_same, h2, if_neg (lt_irrefl _), if_pos (by omega)]
    · rw [upd_ne _ _ hk, h2]
      by_cases hk' : k < m
      · rw [if_pos hk', if_pos (by omega)]
      · rw [if_neg hk', if_neg (by omega)]
  · rintro x' ⟨h1, h2⟩
    exact ⟨h1, fun k hk => by rw [h2, if_pos hk]⟩

/-- What a row adds to the work space. -/
theorem wp_accumBlocks {A : EllB R} {L : Nat → BRow R} (hI : A.Is L) {ib : Nat} (hib : ib < A.NB)
    {bs : Arr Nat} (hbs : bs.size = A.NB) (hg : GoodRow A.NB bs.get ib (L ib)) {MB : Nat}
    (hMB : A.MB = MB) {n2 : Nat} (hn2 : ∀ jb, jb < A.NB → bs.get ib * bs.get jb ≤ n2)
    {s : BScr R} {J : List Nat} {v : Nat → Nat → R}
    (h : s.Holds A.NB n2 (fun jb => bs.get ib * bs.get jb) J v) (c : R) :
    (accumBlocks bs MB A ib c (s, J.length)).wp E (fun st =>
      st.1.Holds A.NB n2 (fun jb => bs.get ib * bs.get jb)
        (((L ib).map Prod.fst).foldl join J) (fun jb k => v jb k + c * val (L ib) jb k) ∧
      st.2 = (((L ib).map Prod.fst).foldl join J).length) := by
  subst hMB
  have hib' : ib < bs.size := by rw [hbs]; exact hib
  have e : accumBlocks bs A.MB A ib c (s, J.length) = forList (L ib) (s, J.length)
      (fun p st => do
        let st ← touch (ib + 1) p.1 (bs.get ib * bs.get p.1) st
        let s ← onBuf p.1 (axpyBuf (bs.get ib * bs.get p.1) c p.2) st.1
        pure (s, st.2)) := by
    refine Eq.trans ?_ (hI.eachIdx_eq hib (s, J.length) (fun ind jb st => do
      let bi ← bs.read ib
      let bj ← bs.read jb
      let st ← touch (ib + 1) jb (bi * bj) st
      let v ← A.block ind
      let s ← onBuf jb (axpyBuf (bi * bj) c v) st.1
      pure (s, st.2)) _ ?_)
    · rfl
    · intro jp jb b st hs
      have hjb : jb < bs.size := by
        rw [hbs]; exact hg.lt (jb, b) (List.mem_of_getElem? hs)
      rw [Arr.read_ok hib', Res.bind_ok, Arr.read_ok hjb, Res.bind_ok]
      simp only
      rw [hI.block_eq hib hs]
      rfl
  rw [e]
  refine wp_forList (fun pre (st : BScr R × Nat) =>
    st.1.Holds A.NB n2 (fun jb => bs.get ib * bs.get jb)
        ((pre.map Prod.fst).foldl join J) (fun jb k => v jb k + c * val pre jb k) ∧
      st.2 = ((pre.map Prod.fst).foldl join J).length) ?_ ?_ (fun _ h => h)
  · exact ⟨h.congr (by simp [val]), rfl⟩
  · rintro pre p post hsp ⟨s', l⟩ ⟨h1, h2⟩
    simp only at h1 h2
    subst h2
    have hp : p ∈ L ib := by rw [hsp]; simp
    have hpb := hg.lt p hp
    rw [Res.wp_bind]
    refine Res.wp_mono (wp_touch h1 (by omega) hpb (le_refl _) (hn2 p.1 hpb)) ?_
    rintro ⟨s2, l2⟩ ⟨q1, q2⟩
    simp only at q1 q2 ⊢
    rw [Res.wp_bind]
    refine Res.wp_mono (wp_onBuf q1 (mem_join.2 (Or.inr rfl)) (fun k => c * p.2.get k) ?_) ?_
    · intro x hx hv
      refine Res.wp_mono (wp_axpyBuf c (hg.size p hp) (by rw [hx]; exact hn2 p.1 hpb)) ?_
      rintro x' ⟨r1, r2⟩
      exact ⟨r1.trans hx, fun k hk => by rw [r2 k hk, hv k hk]⟩
    · rintro s3 h3
      rw [Res.pure_eq, Res.wp_ok, List.map_append, List.foldl_append]
      refine ⟨h3.congr ?_, q2⟩
      intro jb k
      rw [val_append, val_cons]
      simp only [val, SRow.den_nil, List.map_nil]
      by_cases hh : p.1 = jb
      · rw [if_pos hh, if_pos hh]; simp; ring
      · rw [if_neg hh, if_neg hh]; simp

/-- `memset(x[jb], 0); ix[jb] = 0`. -/
theorem wp_wipe {NB n2 : Nat} {s : BScr R} {jb n : Nat} (hx : s.x.size = NB) (hi : s.ix.size = NB)
    (hb : ∀ jb, jb < NB → (s.x.get jb).size = n2) (hjb : jb < NB) (hn : n ≤ n2) :
    (wipe jb n s).wp E (fun s' => s'.x.size = NB ∧ s'.ix.size = NB ∧ s'.jx = s.jx ∧
      (∀ jb, jb < NB → (s'.x.get jb).size = n2) ∧ s'.ix.get jb = 0 ∧
      ∀ c, c ≠ jb → s'.ix.get c = s.ix.get c ∧ s'.x.get c = s.x.get c) := by
  unfold wipe onBuf
  have hz : zeroBuf n (s.x.get jb) =
      .ok ⟨(s.x.get jb).size, fun k => if k < n then 0 else (s.x.get jb).get k⟩ :=
    if_pos (by rw [hb jb hjb]; exact hn)
  simp only [Res.wp_bind, Arr.wp_read, hx, hjb, true_and, hz, Res.wp_ok, Arr.wp_write, hi,
    Res.pure_eq]
  refine ⟨?_, upd_same _ _ _, fun c hc => ⟨upd_ne _ _ hc, upd_ne _ _ hc⟩⟩
  intro c hc
  by_cases h : c = jb
  · subst h; rw [upd_same]; exact hb c hc
  · rw [upd_ne _ _ h]; exact hb c hc

/-- The column blocks that are stored. -/
def kept (big : R → Bool) (diag : Bool) (ib : Nat) (w : Nat → Nat) (v : Nat → Nat → R)
    (J : List Nat) : List Nat :=
  J.filter fun jb => (diag && decide (jb = ib)) || decide (∃ k, k < w jb ∧ big (v jb k) = true)

theorem wp_flush {NB n2 : Nat} {bs : Arr Nat} {ib : Nat} {s : BScr R} {J : List Nat}
    {v : Nat → Nat → R} (h : s.Holds NB n2 (fun jb => bs.get ib * bs.get jb) J v)
    (hbs : bs.size = NB) (hib : ib < NB) (hn2 : ∀ jb, jb < NB → bs.get ib * bs.get jb ≤ n2)
    (big : R → Bool) (diag : Bool) {wn : Nat → Nat} (hwn : ∀ n, n ≤ n2 → wn n ≤ n2)
    (put : Nat → Nat → Nat → Arr R → EllB R → Res (EllB R)) (C : EllB R)
    (G : List Nat → EllB R → Prop) (hG : G [] C)
    (hput : ∀ pre jb post (C : EllB R) (x : Arr R),
      kept big diag ib (fun jb => bs.get ib * bs.get jb) v J = pre ++ jb :: post →
      G pre C → jb < NB → x.size = n2 → (∀ k, k < bs.get ib * bs.get jb → x.get k = v jb k) →
      (put pre.length jb (bs.get ib * bs.get jb) x C).wp E (G (pre ++ [jb]))) :
    (flush big diag wn put bs ib J.length C s).wp E (fun st =>
      G (kept big diag ib (fun jb => bs.get ib * bs.get jb) v J) st.1 ∧ st.2.1.Clean NB n2 ∧
      st.2.2 = (kept big diag ib (fun jb => bs.get ib * bs.get jb) v J).length) := by
  unfold flush
  set K := kept big diag ib (fun jb => bs.get ib * bs.get jb) v with hK
  refine wp_loop' (fun m (st : EllB R × BScr R × Nat) => G (K (J.take m)) st.1 ∧
    st.2.2 = (K (J.take m)).length ∧ st.2.1.x.size = NB ∧ st.2.1.ix.size = NB ∧
    st.2.1.jx = s.jx ∧ (∀ jb, jb < NB → (st.2.1.x.get jb).size = n2) ∧
    (∀ jb, jb < NB → jb ∈ J.take m → st.2.1.ix.get jb = 0) ∧
    (∀ jb, jb < NB → jb ∉ J.take m → st.2.1.ix.get jb = s.ix.get jb ∧
      st.2.1.x.get jb = s.x.get jb)) ?_ ?_ ?_
  · exact ⟨by simpa [hK, kept] using hG, by simp [hK, kept], h.szx, h.szi, rfl, h.buf, by simp,
      fun _ _ _ => ⟨rfl, rfl⟩⟩
  · rintro m hm ⟨C', s', ll⟩ ⟨g1, g2, g3, g4, g5, g6, g7, g8⟩
    simp only at g1 g2 g3 g4 g5 g6 g7 g8 ⊢
    obtain ⟨jb, hjm⟩ : ∃ jb, J[m]? = some jb := ⟨_, List.getElem?_eq_getElem hm⟩
    have hmem : jb ∈ J := List.mem_of_getElem? hjm
    have hjb : jb < NB := h.lt jb hmem
    have hts : J.take (m + 1) = J.take m ++ [jb] := by
      rw [List.take_add_one, hjm]; rfl
    have hnot : jb ∉ J.take m := by
      have hnd := h.nodup
      rw [← List.take_append_drop (m + 1) J, hts, List.append_assoc, List.nodup_append] at hnd
      intro hh
      exact hnd.2.2 jb hh jb (by simp) rfl
    have hjx : s'.jx.read m = .ok jb := by
      rw [g5, Arr.read_ok (by rw [h.szj]; have := h.length_le; omega), h.jx m jb hjm]
    obtain ⟨e1, e2⟩ := g8 jb hjb hnot
    have hxr : s'.x.read jb = .ok (s.x.get jb) := by
      rw [Arr.read_ok (by rw [g3]; exact hjb), e2]
    have hsz := h.buf jb hjb
    have hv := h.val jb hmem
    have hhot : hot big (bs.get ib * bs.get jb) (s.x.get jb) =
        decide (∃ k, k < bs.get ib * bs.get jb ∧ big (v jb k) = true) := by
      unfold hot
      apply decide_eq_decide.2
      constructor
      · rintro ⟨k, q1, q2⟩; exact ⟨k, q1, by rw [← hv k q1]; exact q2⟩
      · rintro ⟨k, q1, q2⟩; exact ⟨k, q1, by rw [hv k q1]; exact q2⟩
    rw [hjx, Res.bind_ok, hxr, Res.bind_ok, Arr.read_ok (by rw [hbs]; exact hib), Res.bind_ok,
      Arr.read_ok (by rw [hbs]; exact hjb), Res.bind_ok,
      anyBig_hot (by rw [hsz]; exact hn2 jb hjb), Res.bind_ok, hhot]
    have hwipe := wp_wipe (E := E) (s := s') (n := wn (bs.get ib * bs.get jb)) g3 g4 g6 hjb
      (hwn _ (hn2 jb hjb))
    have tail : ∀ s2 : BScr R, (s2.x.size = NB ∧ s2.ix.size = NB ∧ s2.jx = s'.jx ∧
        (∀ jb, jb < NB → (s2.x.get jb).size = n2) ∧ s2.ix.get jb = 0 ∧
        ∀ c, c ≠ jb → s2.ix.get c = s'.ix.get c ∧ s2.x.get c = s'.x.get c) →
        s2.x.size = NB ∧ s2.ix.size = NB ∧ s2.jx = s.jx ∧
        (∀ jb, jb < NB → (s2.x.get jb).size = n2) ∧
        (∀ jb, jb < NB → jb ∈ J.take (m + 1) → s2.ix.get jb = 0) ∧
        (∀ jb, jb < NB → jb ∉ J.take (m + 1) → s2.ix.get jb = s.ix.get jb ∧
          s2.x.get jb = s.x.get jb) := by
      rintro s2 ⟨q1, q2, q3, q4, q5, q6⟩
      refine ⟨q1, q2, q3.trans g5, q4, ?_, ?_⟩
      · intro c hc hcm
        by_cases hcj : c = jb
        · rw [hcj]; exact q5
        · rw [(q6 c hcj).1]
          refine g7 c hc ?_
          rw [hts] at hcm
          simpa [hcj] using hcm
      · intro c hc hcm
        rw [hts] at hcm
        simp only [List.mem_append, List.mem_singleton, not_or] at hcm
        rw [(q6 c hcm.2).1, (q6 c hcm.2).2]
        exact g8 c hc hcm.1
    have hKs : K (J.take (m + 1)) = K (J.take m) ++
        (if (diag && decide (jb = ib)) ||
          decide (∃ k, k < bs.get ib * bs.get jb ∧ big (v jb k) = true) then [jb] else []) := by
      rw [hts, hK]
      unfold kept
      rw [List.filter_append]
      congr 1
      rw [List.filter_cons]
      rfl
    have hKJ : K J = K (J.take (m + 1)) ++ K (J.drop (m + 1)) := by
      rw [hK]
      unfold kept
      rw [← List.filter_append, List.take_append_drop]
    by_cases hkeep : (diag = true ∧ jb = ib) ∨
        decide (∃ k, k < bs.get ib * bs.get jb ∧ big (v jb k) = true) = true
    · rw [if_pos hkeep, Res.wp_bind]
      have hb : ((diag && decide (jb = ib)) ||
          decide (∃ k, k < bs.get ib * bs.get jb ∧ big (v jb k) = true)) = true := by
        simpa using hkeep
      rw [if_pos hb] at hKs
      rw [g2]
      refine Res.wp_mono (hput (K (J.take m)) jb (K (J.drop (m + 1))) C' (s.x.get jb) ?_ g1 hjb hsz
        hv) ?_
      · rw [hKJ, hKs, List.append_assoc]; rfl
      · intro C2 hC2
        rw [Res.wp_bind]
        refine Res.wp_mono hwipe ?_
        intro s2 hs2
        rw [Res.pure_eq, Res.wp_ok, hKs]
        exact ⟨hC2, by simp, tail s2 hs2⟩
    · rw [if_neg hkeep, Res.wp_bind]
      have hb : ¬ ((diag && decide (jb = ib)) ||
          decide (∃ k, k < bs.get ib * bs.get jb ∧ big (v jb k) = true)) = true := by
        simpa using hkeep
      rw [if_neg hb, List.append_nil] at hKs
      refine Res.wp_mono hwipe ?_
      intro s2 hs2
      rw [Res.pure_eq, Res.wp_ok, hKs]
      exact ⟨g1, g2, tail s2 hs2⟩
  · rintro ⟨C', s', ll⟩ ⟨g1, g2, g3, g4, g5, g6, g7, g8⟩
    simp only at g1 g2 g3 g4 g5 g6 g7 g8 ⊢
    rw [List.take_length] at g1 g2 g7 g8
    refine ⟨g1, ⟨g3, g4, by rw [g5]; exact h.szj, g6, ?_⟩, g2⟩
    intro jb hjb
    by_cases hm : jb ∈ J
    · exact g7 jb hjb hm
    · rw [(g8 jb hjb hm).1]
      exact (h.mark jb hjb).2 hm

end

end EllB

end Bml
