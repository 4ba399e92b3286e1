import Verif.Common.HandleProof

/-!
# The ownership invariant over call sequences
-/

namespace Bml.Handle

/-- Between `h` and `h'` the allocations of one matrix change from `L` to `L'` and nothing else. -/
structure Change (h h' : Mem) (L L' : List Addr) : Prop where
  out : ∀ x, x ∉ L → x ∉ L' → h' x = h x
  fresh : ∀ x, x ∈ L' → x ∈ L ∨ h x = none
  gone : ∀ x, x ∈ L → x ∉ L' → h' x = none
  nodup : L'.Nodup
  bounded : Bounded h'

theorem Change.refl {h : Mem} {L : List Addr} (hn : L.Nodup) (hb : Bounded h) : Change h h L L :=
  ⟨fun _ _ _ => rfl, fun _ hx => .inl hx, fun _ h1 h2 => absurd h1 h2, hn, hb⟩

theorem Change.trans {h h1 h2 : Mem} {L L1 L2 : List Addr} (c1 : Change h h1 L L1)
    (c2 : Change h1 h2 L1 L2) : Change h h2 L L2 := by
  refine ⟨?_, ?_, ?_, c2.nodup, c2.bounded⟩
  · intro x hx hx2
    by_cases hx1 : x ∈ L1
    · rw [c2.gone x hx1 hx2]
      exact ((c1.fresh x hx1).resolve_left hx).symm
    · rw [c2.out x hx1 hx2, c1.out x hx hx1]
  · intro x hx2
    by_cases hx : x ∈ L
    · exact .inl hx
    · right
      rcases c2.fresh x hx2 with hx1 | e
      · exact (c1.fresh x hx1).resolve_left hx
      · by_cases hx1 : x ∈ L1
        · exact (c1.fresh x hx1).resolve_left hx
        · rw [← c1.out x hx hx1]; exact e
  · intro x hx hx2
    by_cases hx1 : x ∈ L1
    · exact c2.gone x hx1 hx2
    · rw [c2.out x hx1 hx2]; exact c1.gone x hx hx1

theorem Grow.change {h h' : Mem} {L : List Addr} (g : Grow h h' L) (hb : Bounded h) :
    Change h h' [] L :=
  ⟨fun x _ h2 => g.out x h2, fun x hx => .inr (g.fresh x hx), fun x hx => by simp at hx, g.nodup,
    g.bounded hb⟩

theorem change_minus {h : Mem} {X Y Z : List Addr} (hn : (X ++ (Y ++ Z)).Nodup) (hb : Bounded h) :
    Change h (minus h Y) (X ++ (Y ++ Z)) (X ++ Z) := by
  refine ⟨?_, ?_, ?_, ?_, minus_bounded hb⟩
  · intro x h1 h2
    exact minus_out fun hm => h1 (by simp [hm])
  · intro x hx
    left
    rcases List.mem_append.1 hx with hx | hx <;> simp [hx]
  · intro x h1 h2
    apply minus_in
    simp only [List.mem_append, not_or] at h1 h2
    tauto
  · have h1 := List.nodup_append'.1 hn
    have h2 := List.nodup_append'.1 h1.2.1
    exact List.nodup_append'.2 ⟨h1.1, h2.2.1, fun x hx hz =>
      h1.2.2 hx (List.mem_append_right _ hz)⟩

theorem change_grow {h h' : Mem} {X Y Z : List Addr} (hn : (X ++ Z).Nodup)
    (hl : ∀ x, x ∈ X ++ Z → h x ≠ none) (g : Grow h h' Y) (hb : Bounded h) :
    Change h h' (X ++ Z) (X ++ (Y ++ Z)) := by
  refine ⟨?_, ?_, ?_, ?_, g.bounded hb⟩
  · intro x h1 h2
    exact g.out x fun hm => h2 (by simp [hm])
  · intro x hx
    simp only [List.mem_append] at hx ⊢
    rcases hx with hx | hx | hx
    · exact .inl (.inl hx)
    · exact .inr (g.fresh x hx)
    · exact .inl (.inr hx)
  · intro x h1 h2
    simp only [List.mem_append, not_or] at h1 h2
    tauto
  · have h1 := List.nodup_append'.1 hn
    have hY : ∀ x, x ∈ X ++ Z → x ∉ Y := fun x hx hy => hl x hx (g.fresh x hy)
    refine List.nodup_append'.2 ⟨h1.1, List.nodup_append'.2 ⟨g.nodup, h1.2.1, ?_⟩, ?_⟩
    · intro x hy hz
      exact hY x (List.mem_append_right _ hz) hy
    · intro x hx hyz
      rcases List.mem_append.1 hyz with hy | hz
      · exact hY x (List.mem_append_left _ hx) hy
      · exact h1.2.2 hx hz

theorem change_upd {h : Mem} {L : List Addr} (hn : L.Nodup) (hb : Bounded h) {a : Addr}
    (ha : a ∈ L) (o : Obj) : Change h (upd h a (some o)) L L := by
  refine ⟨fun x hx _ => upd_ne _ _ fun e => hx (e ▸ ha), fun x hx => .inl hx,
    fun x h1 h2 => absurd h1 h2, hn, ?_⟩
  obtain ⟨K, hK⟩ := hb
  refine ⟨max K (a + 1), fun x hx => ?_⟩
  have h1 : a + 1 ≤ x := le_trans (le_max_right _ _) hx
  rw [upd_ne _ _ (by rintro rfl; exact absurd h1 (Nat.not_succ_le_self _))]
  exact hK x (le_trans (le_max_left _ _) hx)

theorem mem_mid {x : Addr} {A B C : List Addr} (h : x ∈ A ++ B) : x ∈ A ++ (C ++ B) := by
  rcases List.mem_append.1 h with h | h
  · exact List.mem_append_left _ h
  · exact List.mem_append_right _ (List.mem_append_right _ h)

/-- The matrix that holds the elements, and what a change of it does to the whole matrix. -/
theorem Own.lift {h : Mem} {a : Addr} {L : List Addr} (hO : Own h a L) (hn : L.Nodup) :
    ∃ K, OwnLocal h (target h a) K ∧ K.Nodup ∧ (∀ h' K', Change h h' K K' →
      OwnLocal h' (target h a) K' → ∃ L', Own h' a L' ∧ Change h h' L L') := by
  cases hO with
  | loc h1 =>
    have ht : target h a = a := by
      unfold target
      cases h1 with
      | dense e _ _ _ => rw [e]
      | ellpack e _ _ _ => rw [e]
      | csr e _ _ => rw [e]
      | ellblock e _ _ _ => rw [e]
    rw [ht]
    exact ⟨L, h1, hn, fun h' K' c o => ⟨K', .loc o, c⟩⟩
  | @dist hd l K h1 h2 =>
    have ht : target h a = l := by unfold target; rw [h1]
    rw [ht]
    have hn' := List.nodup_append'.1 hn
    have haK : a ∉ K := fun hm => hn'.2.2 hm (by simp)
    refine ⟨K, h2, hn'.1, fun h' K' c o => ⟨K' ++ [a], ?_, ?_⟩⟩
    · have haK' : a ∉ K' := fun hm => by
        rcases c.fresh a hm with hm | e
        · exact haK hm
        · rw [h1] at e; cases e
      exact .dist ((c.out a haK haK').trans h1) o
    · have haK' : a ∉ K' := fun hm => by
        rcases c.fresh a hm with hm | e
        · exact haK hm
        · rw [h1] at e; cases e
      refine ⟨?_, ?_, ?_, ?_, c.bounded⟩
      · intro x hx hx'
        exact c.out x (fun hm => hx (by simp [hm])) fun hm => hx' (by simp [hm])
      · intro x hx
        rcases List.mem_append.1 hx with hx | hx
        · exact (c.fresh x hx).imp (fun hm => by simp [hm]) id
        · exact .inl (List.mem_append_right _ hx)
      · intro x hx hx'
        rcases List.mem_append.1 hx with hx | hx
        · exact c.gone x hx fun hm => hx' (by simp [hm])
        · exact absurd (List.mem_append_right _ hx) hx'
      · exact List.nodup_append'.2 ⟨c.nodup, List.nodup_singleton a, fun x hx hm => by
          rw [List.mem_singleton] at hm; exact haK' (hm ▸ hx)⟩

/-! ## The invariant -/

/-- Every handle owns its matrix, no two handles share an allocation, and every allocation belongs
to a handle. -/
structure Inv (s : State) (F : Nat → List Addr) : Prop where
  own : ∀ v a, s.vars v = some a → Own s.mem a (F v)
  null : ∀ v, s.vars v = none → F v = []
  nodup : ∀ v, (F v).Nodup
  disj : ∀ v w, v ≠ w → (F v).Disjoint (F w)
  cover : ∀ x, s.mem x ≠ none → ∃ v, x ∈ F v
  bounded : Bounded s.mem

theorem inv_init : Inv State.init fun _ => [] :=
  { own := fun _ _ h => nomatch (show (none : Option Addr) = some _ from h)
    null := fun _ _ => rfl
    nodup := fun _ => List.nodup_nil
    disj := fun _ _ _ => List.disjoint_nil_left _
    cover := fun _ h => absurd rfl h
    bounded := ⟨0, fun _ _ => rfl⟩ }

theorem Inv.replace {s : State} {F : Nat → List Addr} (hI : Inv s F) (v : Nat) {h' : Mem}
    {o : Option Addr} {L' : List Addr} (c : Change s.mem h' (F v) L')
    (ho : ∀ a, o = some a → Own h' a L') (hz : o = none → L' = []) (k : Nat) :
    Inv ⟨h', upd s.vars v o, k⟩ (upd F v L') := by
  have hlive : ∀ w x, x ∈ F w → s.mem x ≠ none := by
    intro w x hx
    cases e : s.vars w with
    | none => rw [hI.null w e] at hx; simp at hx
    | some b => exact (hI.own w b e).live x hx
  have hout : ∀ w, w ≠ v → ∀ x, x ∈ F w → x ∉ F v ∧ x ∉ L' := by
    intro w hw x hx
    have h1 : x ∉ F v := fun hm => hI.disj w v hw hx hm
    refine ⟨h1, fun hm => ?_⟩
    rcases c.fresh x hm with hm | e
    · exact h1 hm
    · exact hlive w x hx e
  refine ⟨?_, ?_, ?_, ?_, ?_, c.bounded⟩
  · intro w b hb
    by_cases e : w = v
    · subst e
      simp only [upd_same] at hb ⊢
      exact ho b hb
    · simp only [upd_ne _ _ e] at hb ⊢
      exact (hI.own w b hb).frame fun x hx => c.out x (hout w e x hx).1 (hout w e x hx).2
  · intro w hb
    by_cases e : w = v
    · subst e
      simp only [upd_same] at hb ⊢
      exact hz hb
    · simp only [upd_ne _ _ e] at hb ⊢
      exact hI.null w hb
  · intro w
    by_cases e : w = v
    · subst e; rw [upd_same]; exact c.nodup
    · rw [upd_ne _ _ e]; exact hI.nodup w
  · intro w u hwu
    by_cases e : w = v
    · subst e
      rw [upd_same, upd_ne _ _ (Ne.symm hwu)]
      exact fun x h1 h2 => (hout u (Ne.symm hwu) x h2).2 h1
    · rw [upd_ne _ _ e]
      by_cases e' : u = v
      · subst e'
        rw [upd_same]
        exact fun x h1 h2 => (hout w e x h1).2 h2
      · rw [upd_ne _ _ e']; exact hI.disj w u hwu
  · intro x hx
    by_cases h1 : x ∈ L'
    · exact ⟨v, by rw [upd_same]; exact h1⟩
    · by_cases h2 : x ∈ F v
      · exact absurd (c.gone x h2 h1) hx
      · have hx' : s.mem x ≠ none := by rw [← c.out x h2 h1]; exact hx
        obtain ⟨w, hw⟩ := hI.cover x hx'
        refine ⟨w, ?_⟩
        rw [upd_ne _ _ (fun e : w = v => h2 (e ▸ hw))]
        exact hw

theorem Inv.same {s : State} {F : Nat → List Addr} (hI : Inv s F) (v : Nat) {a : Addr}
    (ha : s.vars v = some a) {h' : Mem} {L' : List Addr} (c : Change s.mem h' (F v) L')
    (ho : Own h' a L') (k : Nat) : Inv ⟨h', s.vars, k⟩ (upd F v L') := by
  have := hI.replace v c (o := some a) (fun b e => by cases e; exact ho) (fun e => by cases e) k
  have e : upd s.vars v (some a) = s.vars := by
    funext w
    by_cases e : w = v
    · subst e; rw [upd_same, ha]
    · rw [upd_ne _ _ e]
  rwa [e] at this

/-! ## The calls -/

section

variable {al : Alloc} {E : Prop}

theorem wp_zero (ha : Good al) (hE : E ∨ Total al) {v : Nat} {t : Typ} {hd : Hdr}
    (hv : E ∨ ValidLocal t hd) {s : State} {F : Nat → List Addr} (hI : Inv s F)
    (hn : s.vars v = none) :
    (zero al v t hd s).wp E fun s' => ∃ F' a, Inv s' F' ∧ s'.vars = upd s.vars v (some a) ∧
      s'.comms = s.comms := by
  unfold zero
  rw [Res.wp_bind]
  refine Res.wp_mono (wp_zeroLocal ha hE hv hI.bounded) ?_
  rintro ⟨a, h'⟩ ⟨L, g, o, b⟩
  simp only at g o b ⊢
  refine ⟨upd F v L, a, hI.replace v ?_ (fun b e => ?_) (fun e => ?_) _, rfl, rfl⟩
  · rw [hI.null v hn]; exact g.change hI.bounded
  · cases e; exact .loc o
  · cases e

/-- Arguments with which a distributed matrix can be made on a grid of `p × p` processes. -/
def ValidDist (p : Nat) (t : Typ) (hd : Hdr) : Prop :=
  0 < hd.N ∧ 0 < hd.M ∧ hd.N / p * p = hd.N ∧ ValidLocal t (hd.tile p)

theorem own_dist {h h1 h2 : Mem} {a l : Addr} {hd : Hdr} {L : List Addr} (g1 : Grow h h1 [a])
    (g2 : Grow h1 h2 L) (o : OwnLocal h2 l L) :
    Own (upd h2 a (some (.dist hd l))) a (L ++ [a]) ∧
      Grow h (upd h2 a (some (.dist hd l))) (L ++ [a]) := by
  have g := g1.trans g2
  have haL : a ∉ L := fun hm => g1.disj g2 (by simp) hm
  refine ⟨.dist (hd := hd) (upd_same ..) (o.frame fun x hx => upd_ne _ _ fun e => haL (e ▸ hx)), ?_⟩
  exact (g.upd (a := a) (by simp) _).perm List.perm_append_comm

theorem wp_zeroDist (ha : Good al) (hE : E ∨ Total al) {p v : Nat} {t : Typ} {hd : Hdr}
    (hv : E ∨ ValidDist p t hd) {s : State} {F : Nat → List Addr} (hI : Inv s F)
    (hn : s.vars v = none) :
    (zeroDist al p v t hd s).wp E fun s' => ∃ F' a, Inv s' F' ∧
      s'.vars = upd s.vars v (some a) ∧ s'.comms = s.comms + 2 := by
  unfold zeroDist
  by_cases hc : hd.N = 0 ∨ hd.M = 0 ∨ hd.N / p * p ≠ hd.N
  · rw [if_pos hc]
    rcases hv with hv | hv
    · exact hv
    · exfalso
      rcases hc with hc | hc | hc
      · exact absurd hv.1 (by omega)
      · exact absurd hv.2.1 (by omega)
      · exact hc hv.2.2.1
  · rw [if_neg hc]
    simp only [Res.wp_bind, Res.wp_pure]
    refine Res.wp_mono (wp_malloc ha hE hI.bounded) ?_
    rintro ⟨a, h1⟩ ⟨g1, _, b1⟩
    simp only at g1 b1 ⊢
    refine Res.wp_mono (wp_zeroLocal ha hE (hv.imp id fun h => h.2.2.2) b1) ?_
    rintro ⟨l, h2⟩ ⟨L, g2, o, b2⟩
    simp only at g2 o b2 ⊢
    rw [store_eq ((g1.trans g2).live a (by simp))]
    obtain ⟨ho, hg⟩ := own_dist (hd := hd) g1 g2 o
    refine ⟨upd F v (L ++ [a]), a, hI.replace v ?_ (fun b e => ?_) (fun e => ?_) _, rfl, by simp⟩
    · rw [hI.null v hn]; exact hg.change hI.bounded
    · cases e; exact ho
    · cases e

theorem wp_copyNew (ha : Good al) (hE : E ∨ Total al) {v w : Nat} {s : State}
    {F : Nat → List Addr} (hI : Inv s F) (hn : s.vars v = none) (hw : E ∨ s.vars w ≠ none) :
    (copyNew al v w s).wp E fun s' => ∃ F' a, Inv s' F' ∧ s'.vars = upd s.vars v (some a) := by
  unfold copyNew
  cases ew : s.vars w with
  | none => exact hw.elim id fun h => absurd ew h
  | some b =>
    have hO := hI.own w b ew
    simp only
    have key : ∀ {L}, OwnLocal s.mem b L → (do
        let (a, h) ← copyLocal al b s.mem
        pure { s with mem := h, vars := upd s.vars v (some a) } : Res State).wp E
          fun s' => ∃ F' a, Inv s' F' ∧ s'.vars = upd s.vars v (some a) := by
      intro L o
      rw [Res.wp_bind]
      refine Res.wp_mono (wp_copyLocal ha hE hI.bounded o) ?_
      rintro ⟨a, h'⟩ ⟨L, g, o, b⟩
      simp only at g o b ⊢
      refine ⟨upd F v L, a, hI.replace v ?_ (fun b e => ?_) (fun e => ?_) _, rfl⟩
      · rw [hI.null v hn]; exact g.change hI.bounded
      · cases e; exact .loc o
      · cases e
    revert hO
    generalize F w = L
    intro hO
    cases hO with
    | loc h1 =>
      have k := key h1
      cases h1 with
      | dense e _ _ _ => simp only [e]; exact k
      | ellpack e _ _ _ => simp only [e]; exact k
      | csr e _ _ => simp only [e]; exact k
      | ellblock e _ _ _ => simp only [e]; exact k
    | @dist hd l K h1 h2 =>
      simp only [h1, Res.wp_bind]
      refine Res.wp_mono (wp_malloc ha hE hI.bounded) ?_
      rintro ⟨a, h3⟩ ⟨g1, _, b1⟩
      simp only at g1 b1 ⊢
      have h2' : OwnLocal h3 l K := h2.frame fun x hx => g1.out x fun hm =>
        h2.live x hx (g1.fresh x hm)
      refine Res.wp_mono (wp_copyLocal ha hE b1 h2') ?_
      rintro ⟨l', h4⟩ ⟨L, g2, o, b2⟩
      simp only at g2 o b2 ⊢
      rw [store_eq ((g1.trans g2).live a (by simp))]
      obtain ⟨ho, hg⟩ := own_dist (hd := hd) g1 g2 o
      refine ⟨upd F v (L ++ [a]), a, hI.replace v ?_ (fun b e => ?_) (fun e => ?_) _, rfl⟩
      · rw [hI.null v hn]; exact hg.change hI.bounded
      · cases e; exact ho
      · cases e

theorem deallocate_eq {v : Nat} {s : State} {F : Nat → List Addr} (hI : Inv s F) {a : Addr}
    (hv : s.vars v = some a) :
    deallocate v s = .ok ⟨minus s.mem (F v), upd s.vars v none, s.comms⟩ := by
  unfold deallocate
  rw [hv]
  show deallocMat a s.mem >>= _ = _
  rw [deallocMat_eq (hI.own v a hv) (hI.nodup v)]
  rfl

theorem inv_deallocate {v : Nat} {s : State} {F : Nat → List Addr} (hI : Inv s F) :
    ∃ s' F', deallocate v s = .ok s' ∧ Inv s' F' ∧ s'.vars = upd s.vars v none ∧
      s'.comms = s.comms := by
  cases e : s.vars v with
  | none =>
    refine ⟨s, F, by unfold deallocate; rw [e], hI, ?_, rfl⟩
    funext w
    by_cases h : w = v
    · subst h; rw [upd_same, e]
    · rw [upd_ne _ _ h]
  | some a =>
    refine ⟨_, upd F v [], deallocate_eq hI e, hI.replace v ?_ (fun b e => by cases e)
      (fun _ => rfl) _, rfl, rfl⟩
    have := change_minus (X := []) (Y := F v) (Z := []) (by simpa using hI.nodup v) hI.bounded
    simpa using this

theorem wp_clear {v : Nat} {s : State} {F : Nat → List Addr} (hI : Inv s F)
    (hv : E ∨ s.vars v ≠ none) :
    (clear v s).wp E fun s' => ∃ F', Inv s' F' ∧ s'.vars = s.vars := by
  unfold clear
  cases ev : s.vars v with
  | none => exact hv.elim id fun h => absurd ev h
  | some a =>
    obtain ⟨K, hO, hK, hl⟩ := (hI.own v a ev).lift (hI.nodup v)
    simp only
    revert hO hl
    generalize target s.mem a = l
    intro hO hl
    cases hO with
    | dense e _ _ _ => simp only [e]; exact ⟨F, hI, rfl⟩
    | ellpack e _ _ _ => simp only [e]; exact ⟨F, hI, rfl⟩
    | csr e _ _ => simp only [e]; exact ⟨F, hI, rfl⟩
    | @ellblock hd p ix nz bs bl e h2 h3 h4 =>
      simp only [e, h2]
      have hn := List.nodup_append'.1 hK
      rw [freeAll_eq hn.1 (fun x hx => by rw [h3 x hx]; simp)]
      show (store p _ (minus s.mem bl) >>= _).wp _ _
      have hp : p ∉ bl := fun hm => hn.2.2 hm (by simp)
      rw [store_eq (by rw [minus_out hp, h2]; simp)]
      have c1 := change_minus (X := []) (Y := bl) (Z := [p, ix, nz, bs, l]) hK hI.bounded
      have c2 := change_upd c1.nodup c1.bounded (a := p) (by simp) (.blocks [])
      have hne := List.nodup_cons.1 hn.2.1
      have out : ∀ x, x ∈ [ix, nz, bs, l] → upd (minus s.mem bl) p (some (.blocks [])) x = s.mem x := by
        intro x hx
        rw [upd_ne _ _ (fun e : x = p => hne.1 (e ▸ hx)),
          minus_out fun hm => hn.2.2 hm (List.mem_cons_of_mem _ hx)]
      obtain ⟨L', o', c'⟩ := hl _ _ (c1.trans c2) (.ellblock (hd := hd) (bl := [])
        ((out l (by simp)).trans e) (upd_same ..) (fun x hx => by simp at hx)
        (fun x hx => (out x (by simp only [List.mem_cons, List.not_mem_nil, or_false] at hx ⊢; tauto)).trans
          (h4 x hx)))
      exact ⟨_, hI.same v ev c' o' _, rfl⟩

/-- The rows of a CSR matrix around row `i`. -/
theorem RowsAt.split {h : Mem} {rs L : List Addr} (hR : RowsAt h rs L) {i r : Nat}
    (hi : rs[i]? = some r) : ∃ c v L1 L2, L = L1 ++ ([v, c, r] ++ L2) ∧ h r = some (.row c v) ∧
      h c = some .raw ∧ h v = some .raw ∧ (∀ h' c' v', (∀ x, x ∈ L1 ++ L2 → h' x = h x) →
        h' r = some (.row c' v') → h' c' = some .raw → h' v' = some .raw →
        RowsAt h' rs (L1 ++ ([v', c', r] ++ L2))) := by
  induction hR generalizing i with
  | nil => simp at hi
  | @cons r0 c0 v0 rs0 L0 h1 h2 h3 h4 ih =>
    cases i with
    | zero =>
      simp only [List.getElem?_cons_zero, Option.some.injEq] at hi
      subst hi
      exact ⟨c0, v0, [], L0, rfl, h1, h2, h3, fun h' c' v' he e1 e2 e3 =>
        .cons e1 e2 e3 (h4.frame fun x hx => he x hx)⟩
    | succ i =>
      rw [List.getElem?_cons_succ] at hi
      obtain ⟨c, v, L1, L2, rfl, e1, e2, e3, hf⟩ := ih hi
      refine ⟨c, v, [v0, c0, r0] ++ L1, L2, by simp, e1, e2, e3, fun h' c' v' he f1 f2 f3 => ?_⟩
      have := RowsAt.cons (h := h') (r := r0) (c := c0) (v := v0)
        ((he r0 (by simp)).trans h1) ((he c0 (by simp)).trans h2) ((he v0 (by simp)).trans h3)
        (hf h' c' v' (fun x hx => he x (by
          rw [List.append_assoc]; exact List.mem_append_right _ hx)) f1 f2 f3)
      simpa [List.append_assoc] using this

theorem wp_growRow (ha : Good al) (hE : E ∨ Total al) {v i : Nat} {s : State}
    {F : Nat → List Addr} (hI : Inv s F) (hv : E ∨ s.vars v ≠ none) :
    (growRow al v i s).wp E fun s' => ∃ F', Inv s' F' ∧ s'.vars = s.vars := by
  unfold growRow
  cases ev : s.vars v with
  | none => exact hv.elim id fun h => absurd ev h
  | some a =>
    obtain ⟨K, hO, hK, hl⟩ := (hI.own v a ev).lift (hI.nodup v)
    have hlive := hO.live
    simp only
    revert hO hl
    generalize target s.mem a = l
    intro hO hl
    cases hO with
    | dense e _ _ _ => simp only [e]; exact ⟨F, hI, rfl⟩
    | ellpack e _ _ _ => simp only [e]; exact ⟨F, hI, rfl⟩
    | ellblock e _ _ _ => simp only [e]; exact ⟨F, hI, rfl⟩
    | @csr hd data rs L e h2 h3 =>
      simp only [e, h2]
      cases ei : rs[i]? with
      | none => exact ⟨F, hI, rfl⟩
      | some r =>
        obtain ⟨c, w, L1, L2, rfl, e1, e2, e3, hf⟩ := h3.split ei
        simp only [e1, Res.wp_bind]
        have hbd := hI.bounded
        -- release `c`
        have q1 : L1 ++ ([w, c, r] ++ L2) ++ [data, l] =
            (L1 ++ [w]) ++ ([c] ++ ([r] ++ (L2 ++ [data, l]))) := by simp
        rw [q1] at hK hlive hl
        have hc : s.mem c ≠ none := by rw [e2]; simp
        rw [free_eq hc, Res.wp_ok]
        have c1 := change_minus hK hbd
        have l1 : ∀ x, x ∈ (L1 ++ [w]) ++ ([r] ++ (L2 ++ [data, l])) →
            minus s.mem [c] x = s.mem x := by
          intro x hx
          apply minus_out
          have n1 := List.nodup_append'.1 hK
          have n2 := List.nodup_append'.1 n1.2.1
          intro hm
          rcases List.mem_append.1 hx with hx | hx
          · exact n1.2.2 hx (List.mem_append_left _ hm)
          · exact n2.2.2 hm hx
        have live1 : ∀ x, x ∈ (L1 ++ [w]) ++ ([r] ++ (L2 ++ [data, l])) →
            minus s.mem [c] x ≠ none := by
          intro x hx
          rw [l1 x hx]
          apply hlive
          rcases List.mem_append.1 hx with hx | hx
          · exact List.mem_append_left _ hx
          · exact List.mem_append_right _ (List.mem_append_right _ hx)
        -- allocate `c'`
        refine Res.wp_mono (wp_malloc ha hE c1.bounded) ?_
        rintro ⟨c', m2⟩ ⟨g2, r2, b2⟩
        simp only at g2 r2 b2 ⊢
        have c2 := change_grow c1.nodup live1 g2 c1.bounded
        have l2 : ∀ x, x ∈ (L1 ++ [w]) ++ ([r] ++ (L2 ++ [data, l])) → m2 x = s.mem x := by
          intro x hx
          rw [g2.out x fun hm => live1 x hx (g2.fresh x hm), l1 x hx]
        have hn2 := c2.nodup
        have q2 : (L1 ++ [w]) ++ ([c'] ++ ([r] ++ (L2 ++ [data, l]))) =
            L1 ++ ([w] ++ ([c', r] ++ (L2 ++ [data, l]))) := by simp
        rw [q2] at hn2
        have c2' := c2
        rw [q2] at c2'
        -- release `w`
        have hw : m2 w ≠ none := by rw [l2 w (by simp), e3]; simp
        rw [free_eq hw, Res.wp_ok]
        have c3 := change_minus hn2 b2
        have l3 : ∀ x, x ∈ L1 ++ ([c', r] ++ (L2 ++ [data, l])) → minus m2 [w] x = m2 x := by
          intro x hx
          apply minus_out
          have n1 := List.nodup_append'.1 hn2
          have n2 := List.nodup_append'.1 n1.2.1
          intro hm
          rcases List.mem_append.1 hx with hx | hx
          · exact n1.2.2 hx (List.mem_append_left _ hm)
          · exact n2.2.2 hm hx
        have live3 : ∀ x, x ∈ L1 ++ ([c', r] ++ (L2 ++ [data, l])) → minus m2 [w] x ≠ none := by
          intro x hx
          rw [l3 x hx]
          by_cases hx' : x = c'
          · subst hx'; rw [r2]; simp
          · have hx'' : x ∈ (L1 ++ [w]) ++ ([r] ++ (L2 ++ [data, l])) := by
              rcases List.mem_append.1 hx with hx | hx
              · exact List.mem_append_left _ (List.mem_append_left _ hx)
              · rcases List.mem_cons.1 hx with hx | hx
                · exact absurd hx hx'
                · exact List.mem_append_right _ hx
            rw [l2 x hx'', ← l1 x hx'']
            exact live1 x hx''
        -- allocate `w'`
        refine Res.wp_mono (wp_malloc ha hE c3.bounded) ?_
        rintro ⟨w', m4⟩ ⟨g4, r4, b4⟩
        simp only at g4 r4 b4 ⊢
        have c4 := change_grow c3.nodup live3 g4 c3.bounded
        have l4 : ∀ x, x ∈ L1 ++ ([c', r] ++ (L2 ++ [data, l])) → m4 x = m2 x := by
          intro x hx
          rw [g4.out x fun hm => live3 x hx (g4.fresh x hm), l3 x hx]
        have hr4 : m4 r ≠ none := by
          rw [g4.out r fun hm => live3 r (by simp) (g4.fresh r hm)]
          exact live3 r (by simp)
        rw [store_eq hr4]
        have c5 := change_upd c4.nodup c4.bounded (a := r) (by simp) (.row c' w')
        have hn4 := c4.nodup
        have nr : ∀ x, x ∈ L1 ++ ([w', c'] ++ (L2 ++ [data, l])) → x ≠ r := by
          have : (L1 ++ ([w'] ++ ([c', r] ++ (L2 ++ [data, l])))).Perm
              (r :: (L1 ++ ([w', c'] ++ (L2 ++ [data, l])))) := by
            have q : L1 ++ ([w'] ++ ([c', r] ++ (L2 ++ [data, l]))) =
              (L1 ++ [w', c']) ++ (r :: (L2 ++ [data, l])) := by simp
            have q' : r :: (L1 ++ ([w', c'] ++ (L2 ++ [data, l]))) =
              r :: ((L1 ++ [w', c']) ++ (L2 ++ [data, l])) := by simp
            rw [q, q']
            exact List.perm_middle
          have := (this.nodup_iff.1 hn4)
          intro x hx e
          exact (List.nodup_cons.1 this).1 (e ▸ hx)
        have fin : ∀ x, x ∈ L1 ++ (L2 ++ [data, l]) → upd m4 r (some (.row c' w')) x = s.mem x := by
          intro x hx
          have a1 : x ∈ L1 ++ ([w', c'] ++ (L2 ++ [data, l])) := mem_mid hx
          have a2 : x ∈ L1 ++ ([c', r] ++ (L2 ++ [data, l])) := mem_mid hx
          have a3 : x ∈ (L1 ++ [w]) ++ ([r] ++ (L2 ++ [data, l])) := by
            rw [List.append_assoc]
            exact mem_mid (C := [w]) (mem_mid (C := [r]) hx)
          rw [upd_ne _ _ (nr x a1), l4 x a2, l2 x a3]
        have rows := hf (upd m4 r (some (.row c' w'))) c' w'
          (fun x hx => fin x (by
            rw [← List.append_assoc]
            exact List.mem_append_left _ hx)) (upd_same ..)
          (by rw [upd_ne _ _ (nr c' (by simp)), l4 c' (by simp)]; exact r2)
          (by rw [upd_ne _ _ (nr w' (by simp))]; exact r4)
        have cc := ((c1.trans c2').trans (c3.trans c4)).trans c5
        have q5 : L1 ++ ([w'] ++ ([c', r] ++ (L2 ++ [data, l]))) =
            (L1 ++ ([w', c', r] ++ L2)) ++ [data, l] := by simp
        rw [q5] at cc
        obtain ⟨L', o', c'⟩ := hl _ _ cc (.csr (hd := hd) ((fin l (by simp)).trans e)
          ((fin data (by simp)).trans h2) rows)
        exact ⟨_, hI.same v ev c' o' _, rfl⟩

theorem wp_addBlock (ha : Good al) (hE : E ∨ Total al) {v k : Nat} {s : State}
    {F : Nat → List Addr} (hI : Inv s F) (hv : E ∨ s.vars v ≠ none) :
    (addBlock al v k s).wp E fun s' => ∃ F', Inv s' F' ∧ s'.vars = s.vars := by
  unfold addBlock
  cases ev : s.vars v with
  | none => exact hv.elim id fun h => absurd ev h
  | some a =>
    obtain ⟨K, hO, hK, hl⟩ := (hI.own v a ev).lift (hI.nodup v)
    have hlive := hO.live
    simp only
    revert hO hl
    generalize target s.mem a = l
    intro hO hl
    cases hO with
    | dense e _ _ _ => simp only [e]; exact ⟨F, hI, rfl⟩
    | ellpack e _ _ _ => simp only [e]; exact ⟨F, hI, rfl⟩
    | csr e _ _ => simp only [e]; exact ⟨F, hI, rfl⟩
    | @ellblock hd p ix nz bs bl e h2 h3 h4 =>
      simp only [e, h2, Res.wp_bind]
      have q1 : bl ++ [p, ix, nz, bs, l] = bl.take k ++ (bl.drop k ++ [p, ix, nz, bs, l]) := by
        rw [← List.append_assoc, List.take_append_drop]
      have hn := List.nodup_append'.1 hK
      have hne := List.nodup_cons.1 hn.2.1
      refine Res.wp_mono (wp_malloc ha hE hI.bounded) ?_
      rintro ⟨b, m⟩ ⟨g, r1, b1⟩
      simp only at g r1 b1 ⊢
      have hp : m p ≠ none := by
        rw [g.out p fun hm => hlive p (by simp) (g.fresh p hm)]
        exact hlive p (by simp)
      rw [store_eq hp]
      have hnb : ∀ x, x ∈ bl ++ [p, ix, nz, bs, l] → x ≠ b := fun x hx e =>
        hlive x hx (g.fresh x (by simp [e]))
      have hK' := hK
      have hlive' := hlive
      rw [q1] at hK' hlive'
      have c1 := change_grow hK' hlive' g hI.bounded
      have c2 := change_upd c1.nodup c1.bounded (a := p) (by simp)
        (.blocks (bl.take k ++ b :: bl.drop k))
      have hpbl : p ∉ bl := fun hm => hn.2.2 hm (by simp)
      have out : ∀ x, x ∈ bl ++ [ix, nz, bs, l] →
          upd m p (some (.blocks (bl.take k ++ b :: bl.drop k))) x = s.mem x := by
        intro x hx
        have hx' : x ∈ bl ++ [p, ix, nz, bs, l] := by
          rcases List.mem_append.1 hx with hx | hx
          · exact List.mem_append_left _ hx
          · exact List.mem_append_right _ (List.mem_cons_of_mem _ hx)
        have hxp : x ≠ p := by
          rintro rfl
          rcases List.mem_append.1 hx with hx | hx
          · exact hpbl hx
          · exact hne.1 hx
        rw [upd_ne _ _ hxp, g.out x fun hm => hnb x hx' (List.mem_singleton.1 hm)]
      have q2 : bl.take k ++ ([b] ++ (bl.drop k ++ [p, ix, nz, bs, l])) =
          (bl.take k ++ b :: bl.drop k) ++ [p, ix, nz, bs, l] := by simp
      have cc := c1.trans c2
      rw [q2, ← q1] at cc
      obtain ⟨L', o', c'⟩ := hl _ _ cc (.ellblock (hd := hd) ((out l (by simp)).trans e)
        (upd_same ..) (fun x hx => by
          by_cases hxb : x = b
          · subst hxb
            rw [upd_ne _ _ (Ne.symm (hnb p (by simp)))]
            exact r1
          · have : x ∈ bl := by
              rcases List.mem_append.1 hx with hx | hx
              · exact List.mem_of_mem_take hx
              · exact List.mem_of_mem_drop ((List.mem_cons.1 hx).resolve_left hxb)
            rw [out x (List.mem_append_left _ this), h3 x this])
        (fun x hx => (out x (by
          simp only [List.mem_append, List.mem_cons, List.not_mem_nil, or_false] at hx ⊢
          tauto)).trans (h4 x hx)))
      exact ⟨_, hI.same v ev c' o' _, rfl⟩

theorem wp_dropBlock {v k : Nat} {s : State} {F : Nat → List Addr} (hI : Inv s F)
    (hv : E ∨ s.vars v ≠ none) :
    (dropBlock v k s).wp E fun s' => ∃ F', Inv s' F' ∧ s'.vars = s.vars := by
  unfold dropBlock
  cases ev : s.vars v with
  | none => exact hv.elim id fun h => absurd ev h
  | some a =>
    obtain ⟨K, hO, hK, hl⟩ := (hI.own v a ev).lift (hI.nodup v)
    have hlive := hO.live
    simp only
    revert hO hl
    generalize target s.mem a = l
    intro hO hl
    cases hO with
    | dense e _ _ _ => simp only [e]; exact ⟨F, hI, rfl⟩
    | ellpack e _ _ _ => simp only [e]; exact ⟨F, hI, rfl⟩
    | csr e _ _ => simp only [e]; exact ⟨F, hI, rfl⟩
    | @ellblock hd p ix nz bs bl e h2 h3 h4 =>
      simp only [e, h2]
      cases ek : bl[k]? with
      | none => exact ⟨F, hI, rfl⟩
      | some b =>
        simp only
        obtain ⟨hk, hbk⟩ := List.getElem?_eq_some_iff.1 ek
        have qb : bl = bl.take k ++ b :: bl.drop (k + 1) := by
          rw [← hbk]
          exact (List.take_append_drop k bl).symm.trans (by rw [List.drop_eq_getElem_cons hk])
        have q1 : bl ++ [p, ix, nz, bs, l] =
            bl.take k ++ ([b] ++ (bl.drop (k + 1) ++ [p, ix, nz, bs, l])) := by
          conv_lhs => rw [qb]
          simp
        have hb : b ∈ bl := by rw [qb]; simp
        have hn := List.nodup_append'.1 hK
        have hne := List.nodup_cons.1 hn.2.1
        have hK' := hK
        rw [q1] at hK'
        rw [free_eq (hlive b (List.mem_append_left _ hb)), Res.bind_ok]
        have c1 := change_minus hK' hI.bounded
        have hpb : p ≠ b := fun e => hn.2.2 hb (by simp [← e])
        have hp : minus s.mem [b] p ≠ none := by
          rw [minus_out (by simpa using hpb)]
          exact hlive p (by simp)
        rw [store_eq hp]
        have c2 := change_upd c1.nodup c1.bounded (a := p) (by simp)
          (.blocks (bl.take k ++ bl.drop (k + 1)))
        have nd : (bl.take k ++ bl.drop (k + 1) ++ [p, ix, nz, bs, l]).Nodup := by
          have := c1.nodup
          rwa [← List.append_assoc] at this
        have hnb : ∀ x, x ∈ bl.take k ++ bl.drop (k + 1) ++ [p, ix, nz, bs, l] → x ≠ b := by
          intro x hx e
          have h1 := List.nodup_append'.1 hK'
          have h2 := List.nodup_append'.1 h1.2.1
          rw [List.append_assoc] at hx
          rcases List.mem_append.1 hx with hx | hx
          · exact h1.2.2 hx (by simp [e])
          · exact h2.2.2 (List.mem_singleton.2 rfl) (e ▸ hx)
        have n1 := List.nodup_append'.1 nd
        have out : ∀ x, x ∈ bl.take k ++ bl.drop (k + 1) ++ [ix, nz, bs, l] →
            upd (minus s.mem [b]) p (some (.blocks (bl.take k ++ bl.drop (k + 1)))) x = s.mem x := by
          intro x hx
          have hx' : x ∈ bl.take k ++ bl.drop (k + 1) ++ [p, ix, nz, bs, l] := by
            rcases List.mem_append.1 hx with hx | hx
            · exact List.mem_append_left _ hx
            · exact List.mem_append_right _ (List.mem_cons_of_mem _ hx)
          have hxp : x ≠ p := by
            rintro rfl
            rcases List.mem_append.1 hx with hx | hx
            · exact n1.2.2 hx (by simp)
            · exact hne.1 hx
          rw [upd_ne _ _ hxp, minus_out fun hm => hnb x hx' (List.mem_singleton.1 hm)]
        have cc := c1.trans c2
        rw [← q1, ← List.append_assoc] at cc
        obtain ⟨L', o', c'⟩ := hl _ _ cc (.ellblock (hd := hd) ((out l (by simp)).trans e)
          (upd_same ..) (fun x hx => (out x (List.mem_append_left _ hx)).trans (h3 x (by
            rcases List.mem_append.1 hx with hx | hx
            · exact List.mem_of_mem_take hx
            · exact List.mem_of_mem_drop hx)))
          (fun x hx => (out x (by
            simp only [List.mem_append, List.mem_cons, List.not_mem_nil, or_false] at hx ⊢
            tauto)).trans (h4 x hx)))
        exact ⟨_, hI.same v ev c' o' _, rfl⟩

end

end Bml.Handle
