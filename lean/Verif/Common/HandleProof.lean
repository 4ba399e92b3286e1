import Verif.Common.Handle

/-!
# Ownership of the memory behind a handle

`Own h a L`: at address `a` there is a matrix whose allocations are exactly `L`.  Construction adds
a set of fresh allocations owned by the new matrix, release removes exactly the owned ones.
-/

namespace Bml.Handle

/-- `h` without the addresses in `L`. -/
def minus (h : Mem) (L : List Addr) : Mem := fun x => if x ∈ L then none else h x

theorem minus_nil (h : Mem) : minus h [] = h := by funext x; simp [minus]

theorem minus_minus (h : Mem) (L K : List Addr) : minus (minus h L) K = minus h (L ++ K) := by
  funext x
  by_cases h1 : x ∈ K <;> by_cases h2 : x ∈ L <;> simp [minus, h1, h2]

theorem minus_out {h : Mem} {L : List Addr} {x : Addr} (hx : x ∉ L) : minus h L x = h x := by
  simp [minus, hx]

theorem minus_in {h : Mem} {L : List Addr} {x : Addr} (hx : x ∈ L) : minus h L x = none := by
  simp [minus, hx]

theorem minus_perm {h : Mem} {L K : List Addr} (hp : L.Perm K) : minus h L = minus h K := by
  funext x
  simp [minus, hp.mem_iff]

theorem free_eq {a : Addr} {h : Mem} (ha : h a ≠ none) : free a h = .ok (minus h [a]) := by
  unfold free
  cases hx : h a with
  | none => exact absurd hx ha
  | some o =>
    show Res.ok _ = Res.ok _
    congr 1
    funext x
    by_cases e : x = a <;> simp [upd, minus, e]

theorem free_dead {a : Addr} {h : Mem} (ha : h a = none) : free a h = .ub := by
  unfold free; rw [ha]

theorem freeAll_eq {L : List Addr} {h : Mem} (hn : L.Nodup) (hL : ∀ x, x ∈ L → h x ≠ none) :
    freeAll L h = .ok (minus h L) := by
  induction L generalizing h with
  | nil => rw [minus_nil]; rfl
  | cons a L ih =>
    have hn' := List.nodup_cons.1 hn
    unfold freeAll
    rw [free_eq (hL a List.mem_cons_self)]
    show freeAll L (minus h [a]) = _
    rw [ih hn'.2, minus_minus]
    · rfl
    · intro x hx
      rw [minus_out (by rintro hm; rw [List.mem_singleton] at hm; exact hn'.1 (hm ▸ hx))]
      exact hL x (List.mem_cons_of_mem _ hx)

/-- A domain at `d` with allocations `L`. -/
def DomAt (h : Mem) (d : Addr) (L : List Addr) : Prop :=
  ∃ a b c e f, h d = some (.domain a b c e f) ∧ L = [a, b, c, e, f, d] ∧
    ∀ x, x ∈ [a, b, c, e, f] → h x = some .raw

/-- The rows of a CSR matrix, with allocations `L`. -/
inductive RowsAt (h : Mem) : List Addr → List Addr → Prop
  | nil : RowsAt h [] []
  | cons {r c v rs L} : h r = some (.row c v) → h c = some .raw → h v = some .raw →
      RowsAt h rs L → RowsAt h (r :: rs) ([v, c, r] ++ L)

/-- A matrix that is not distributed, with its allocations. -/
inductive OwnLocal (h : Mem) : Addr → List Addr → Prop
  | dense {a hd m d1 d2 L1 L2} : h a = some (.dense hd m d1 d2) → DomAt h d1 L1 → DomAt h d2 L2 →
      h m = some .raw → OwnLocal h a (L1 ++ (L2 ++ [m, a]))
  | ellpack {a hd v ix nz d1 d2 L1 L2} : h a = some (.ellpack hd v ix nz d1 d2) → DomAt h d1 L1 →
      DomAt h d2 L2 → (∀ x, x ∈ [v, ix, nz] → h x = some .raw) →
      OwnLocal h a (L1 ++ (L2 ++ [v, ix, nz, a]))
  | csr {a hd data rs L} : h a = some (.csr hd data) → h data = some (.rows rs) →
      RowsAt h rs L → OwnLocal h a (L ++ [data, a])
  | ellblock {a hd p ix nz bs bl} : h a = some (.ellblock hd p ix nz bs) →
      h p = some (.blocks bl) → (∀ x, x ∈ bl → h x = some .raw) →
      (∀ x, x ∈ [ix, nz, bs] → h x = some .raw) → OwnLocal h a (bl ++ [p, ix, nz, bs, a])

/-- A matrix, with its allocations. -/
inductive Own (h : Mem) : Addr → List Addr → Prop
  | loc {a L} : OwnLocal h a L → Own h a L
  | dist {a hd l L} : h a = some (.dist hd l) → OwnLocal h l L → Own h a (L ++ [a])

/-! ## Locality -/

theorem DomAt.frame {h h' : Mem} {d : Addr} {L : List Addr} (hD : DomAt h d L)
    (he : ∀ x, x ∈ L → h' x = h x) : DomAt h' d L := by
  obtain ⟨a, b, c, e, f, h1, rfl, h2⟩ := hD
  refine ⟨a, b, c, e, f, ?_, rfl, ?_⟩
  · rw [he d (by simp), h1]
  · intro x hx
    rw [he x (by simp only [List.mem_cons, List.not_mem_nil, or_false] at hx ⊢; tauto)]
    exact h2 x hx

theorem DomAt.live {h : Mem} {d : Addr} {L : List Addr} (hD : DomAt h d L) :
    ∀ x, x ∈ L → h x ≠ none := by
  obtain ⟨a, b, c, e, f, h1, rfl, h2⟩ := hD
  intro x hx
  by_cases hd : x = d
  · rw [hd, h1]; simp
  · rw [h2 x (by simp only [List.mem_cons, List.not_mem_nil, or_false] at hx ⊢; tauto)]; simp

theorem RowsAt.frame {h h' : Mem} {rs L : List Addr} (hR : RowsAt h rs L)
    (he : ∀ x, x ∈ L → h' x = h x) : RowsAt h' rs L := by
  induction hR with
  | nil => exact .nil
  | cons h1 h2 h3 _ ih =>
    refine .cons ?_ ?_ ?_ (ih fun x hx => he x (List.mem_append_right _ hx))
    · rw [he _ (by simp), h1]
    · rw [he _ (by simp), h2]
    · rw [he _ (by simp), h3]

theorem RowsAt.live {h : Mem} {rs L : List Addr} (hR : RowsAt h rs L) :
    ∀ x, x ∈ L → h x ≠ none := by
  induction hR with
  | nil => intro x hx; simp at hx
  | cons h1 h2 h3 _ ih =>
    intro x hx
    rcases List.mem_append.1 hx with hx | hx
    · simp only [List.mem_cons, List.not_mem_nil, or_false] at hx
      rcases hx with rfl | rfl | rfl
      · rw [h3]; simp
      · rw [h2]; simp
      · rw [h1]; simp
    · exact ih x hx

theorem OwnLocal.frame {h h' : Mem} {a : Addr} {L : List Addr} (hO : OwnLocal h a L)
    (he : ∀ x, x ∈ L → h' x = h x) : OwnLocal h' a L := by
  cases hO with
  | dense h1 h2 h3 h4 =>
    refine .dense ((he _ (by simp)).trans h1) (h2.frame fun x hx => he x (by simp [hx]))
      (h3.frame fun x hx => he x (by simp [hx])) ?_
    · rw [he _ (by simp), h4]
  | ellpack h1 h2 h3 h4 =>
    refine .ellpack ((he _ (by simp)).trans h1) (h2.frame fun x hx => he x (by simp [hx]))
      (h3.frame fun x hx => he x (by simp [hx])) ?_
    · intro x hx
      rw [he x (by
        simp only [List.mem_append, List.mem_cons, List.not_mem_nil, or_false] at hx ⊢
        tauto), h4 x hx]
  | csr h1 h2 h3 =>
    refine .csr ((he _ (by simp)).trans h1) ?_ (h3.frame fun x hx => he x (by simp [hx]))
    · rw [he _ (by simp), h2]
  | ellblock h1 h2 h3 h4 =>
    refine .ellblock ((he _ (by simp)).trans h1) ?_ (fun x hx => ?_) fun x hx => ?_
    · rw [he _ (by simp), h2]
    · rw [he x (by simp [hx]), h3 x hx]
    · rw [he x (by
        simp only [List.mem_append, List.mem_cons, List.not_mem_nil, or_false] at hx ⊢
        tauto), h4 x hx]

theorem Own.frame {h h' : Mem} {a : Addr} {L : List Addr} (hO : Own h a L)
    (he : ∀ x, x ∈ L → h' x = h x) : Own h' a L := by
  cases hO with
  | loc h1 => exact .loc (h1.frame he)
  | dist h1 h2 =>
    exact .dist ((he _ (by simp)).trans h1) (h2.frame fun x hx => he x (by simp [hx]))

theorem OwnLocal.live {h : Mem} {a : Addr} {L : List Addr} (hO : OwnLocal h a L) :
    ∀ x, x ∈ L → h x ≠ none := by
  intro x hx
  cases hO with
  | dense h1 h2 h3 h4 =>
    simp only [List.mem_append, List.mem_cons, List.not_mem_nil, or_false] at hx
    rcases hx with hx | hx | rfl | rfl
    · exact h2.live x hx
    · exact h3.live x hx
    · rw [h4]; simp
    · rw [h1]; simp
  | ellpack h1 h2 h3 h4 =>
    simp only [List.mem_append, List.mem_cons, List.not_mem_nil, or_false] at hx
    rcases hx with hx | hx | hx | hx | hx | rfl
    · exact h2.live x hx
    · exact h3.live x hx
    · rw [h4 x (by simp [hx])]; simp
    · rw [h4 x (by simp [hx])]; simp
    · rw [h4 x (by simp [hx])]; simp
    · rw [h1]; simp
  | csr h1 h2 h3 =>
    simp only [List.mem_append, List.mem_cons, List.not_mem_nil, or_false] at hx
    rcases hx with hx | rfl | rfl
    · exact h3.live x hx
    · rw [h2]; simp
    · rw [h1]; simp
  | ellblock h1 h2 h3 h4 =>
    simp only [List.mem_append, List.mem_cons, List.not_mem_nil, or_false] at hx
    rcases hx with hx | rfl | hx | hx | hx | rfl
    · rw [h3 x hx]; simp
    · rw [h2]; simp
    · rw [h4 x (by simp [hx])]; simp
    · rw [h4 x (by simp [hx])]; simp
    · rw [h4 x (by simp [hx])]; simp
    · rw [h1]; simp

theorem Own.live {h : Mem} {a : Addr} {L : List Addr} (hO : Own h a L) :
    ∀ x, x ∈ L → h x ≠ none := by
  intro x hx
  cases hO with
  | loc h1 => exact h1.live x hx
  | dist h1 h2 =>
    simp only [List.mem_append, List.mem_cons, List.not_mem_nil, or_false] at hx
    rcases hx with hx | rfl
    · exact h2.live x hx
    · rw [h1]; simp

theorem OwnLocal.self {h : Mem} {a : Addr} {L : List Addr} (hO : OwnLocal h a L) : a ∈ L := by
  cases hO <;> simp

theorem Own.self {h : Mem} {a : Addr} {L : List Addr} (hO : Own h a L) : a ∈ L := by
  cases hO with
  | loc h1 => exact h1.self
  | dist _ _ => simp

/-! ## Release -/

theorem deallocDomain_eq {h : Mem} {d : Addr} {L : List Addr} (hD : DomAt h d L) (hn : L.Nodup) :
    deallocDomain d h = .ok (minus h L) := by
  have hl := hD.live
  obtain ⟨a, b, c, e, f, h1, rfl, h2⟩ := hD
  unfold deallocDomain
  rw [h1]
  exact freeAll_eq hn hl

theorem deallocRows_eq {h : Mem} {rs L : List Addr} (hR : RowsAt h rs L) (hn : L.Nodup) :
    deallocRows rs h = .ok (minus h L) := by
  induction rs generalizing h L with
  | nil => cases hR; rw [minus_nil]; rfl
  | cons r rs ih =>
    have hl := hR.live
    cases hR with
    | cons h1 h2 h3 h4 =>
      have hn' := List.nodup_append'.1 hn
      unfold deallocRows
      rw [h1]
      show freeAll _ h >>= _ = _
      rw [freeAll_eq hn'.1 fun x hx => hl x (List.mem_append_left _ hx)]
      show deallocRows rs (minus h _) = _
      rw [ih (h4.frame fun x hx => minus_out fun hm => hn'.2.2 hm hx) hn'.2.1, minus_minus]

theorem deallocLocal_eq {h : Mem} {a : Addr} {L : List Addr} (hO : OwnLocal h a L) (hn : L.Nodup) :
    deallocLocal a h = .ok (minus h L) := by
  have hl := hO.live
  unfold deallocLocal
  cases hO with
  | @dense hd m d1 d2 L1 L2 h1 h2 h3 h4 =>
    rw [h1]
    have hn1 := List.nodup_append'.1 hn
    have hn2 := List.nodup_append'.1 hn1.2.1
    show deallocDomain d1 h >>= _ = _
    rw [deallocDomain_eq h2 hn1.1]
    show deallocDomain d2 (minus h L1) >>= _ = _
    rw [deallocDomain_eq (h3.frame fun x hx => minus_out fun hm =>
      hn1.2.2 hm (List.mem_append_left _ hx)) hn2.1]
    show freeAll _ (minus (minus h L1) L2) = _
    rw [minus_minus, freeAll_eq hn2.2.1, minus_minus, List.append_assoc]
    intro x hx
    rw [minus_out]
    · exact hl x (List.mem_append_right _ (List.mem_append_right _ hx))
    · intro hm
      rcases List.mem_append.1 hm with hm | hm
      · exact hn1.2.2 hm (List.mem_append_right _ hx)
      · exact hn2.2.2 hm hx
  | @ellpack hd v ix nz d1 d2 L1 L2 h1 h2 h3 h4 =>
    rw [h1]
    have hn1 := List.nodup_append'.1 hn
    have hn2 := List.nodup_append'.1 hn1.2.1
    show deallocDomain d1 h >>= _ = _
    rw [deallocDomain_eq h2 hn1.1]
    show deallocDomain d2 (minus h L1) >>= _ = _
    rw [deallocDomain_eq (h3.frame fun x hx => minus_out fun hm =>
      hn1.2.2 hm (List.mem_append_left _ hx)) hn2.1]
    show freeAll _ (minus (minus h L1) L2) = _
    rw [minus_minus, freeAll_eq hn2.2.1, minus_minus, List.append_assoc]
    intro x hx
    rw [minus_out]
    · exact hl x (List.mem_append_right _ (List.mem_append_right _ hx))
    · intro hm
      rcases List.mem_append.1 hm with hm | hm
      · exact hn1.2.2 hm (List.mem_append_right _ hx)
      · exact hn2.2.2 hm hx
  | @csr hd data rs L1 h1 h2 h3 =>
    simp only [h1, h2]
    have hn1 := List.nodup_append'.1 hn
    rw [deallocRows_eq h3 hn1.1]
    show freeAll _ (minus h L1) = _
    rw [freeAll_eq hn1.2.1, minus_minus]
    intro x hx
    rw [minus_out fun hm => hn1.2.2 hm hx]
    exact hl x (List.mem_append_right _ hx)
  | @ellblock hd p ix nz bs bl h1 h2 h3 h4 =>
    simp only [h1, h2]
    have hn1 := List.nodup_append'.1 hn
    rw [freeAll_eq hn1.1 fun x hx => hl x (List.mem_append_left _ hx)]
    show freeAll _ (minus h bl) = _
    rw [freeAll_eq hn1.2.1, minus_minus]
    intro x hx
    rw [minus_out fun hm => hn1.2.2 hm hx]
    exact hl x (List.mem_append_right _ hx)

theorem deallocMat_eq {h : Mem} {a : Addr} {L : List Addr} (hO : Own h a L) (hn : L.Nodup) :
    deallocMat a h = .ok (minus h L) := by
  have hl := hO.live
  unfold deallocMat
  cases hO with
  | loc h1 =>
    cases h1 with
    | dense e h2 h3 h4 => simp only [e]; exact deallocLocal_eq (.dense e h2 h3 h4) hn
    | ellpack e h2 h3 h4 => simp only [e]; exact deallocLocal_eq (.ellpack e h2 h3 h4) hn
    | csr e h2 h3 => simp only [e]; exact deallocLocal_eq (.csr e h2 h3) hn
    | ellblock e h2 h3 h4 => simp only [e]; exact deallocLocal_eq (.ellblock e h2 h3 h4) hn
  | @dist hd l L1 h1 h2 =>
    have hn1 := List.nodup_append'.1 hn
    simp only [h1]
    rw [deallocLocal_eq h2 hn1.1]
    show free a (minus h L1) = _
    rw [free_eq, minus_minus]
    rw [minus_out fun hm => hn1.2.2 hm (by simp)]
    exact hl a (by simp)

/-! ## Construction -/

/-- `h'` is `h` with the fresh allocations `L`. -/
structure Grow (h h' : Mem) (L : List Addr) : Prop where
  nodup : L.Nodup
  fresh : ∀ x, x ∈ L → h x = none
  live : ∀ x, x ∈ L → h' x ≠ none
  out : ∀ x, x ∉ L → h' x = h x

theorem Grow.refl (h : Mem) : Grow h h [] :=
  ⟨List.nodup_nil, fun _ hx => absurd hx List.not_mem_nil,
    fun _ hx => absurd hx List.not_mem_nil, fun _ _ => rfl⟩

theorem Grow.disj {h h1 h2 : Mem} {L1 L2 : List Addr} (g1 : Grow h h1 L1) (g2 : Grow h1 h2 L2) :
    L1.Disjoint L2 := fun x h1' h2' => g1.live x h1' (g2.fresh x h2')

theorem Grow.trans {h h1 h2 : Mem} {L1 L2 : List Addr} (g1 : Grow h h1 L1) (g2 : Grow h1 h2 L2) :
    Grow h h2 (L1 ++ L2) := by
  have hd := g1.disj g2
  refine ⟨List.nodup_append'.2 ⟨g1.nodup, g2.nodup, hd⟩, ?_, ?_, ?_⟩
  · intro x hx
    by_cases h1' : x ∈ L1
    · exact g1.fresh x h1'
    · rw [← g1.out x h1']
      exact g2.fresh x ((List.mem_append.1 hx).resolve_left h1')
  · intro x hx
    by_cases h2' : x ∈ L2
    · exact g2.live x h2'
    · rw [g2.out x h2']
      exact g1.live x ((List.mem_append.1 hx).resolve_right h2')
  · intro x hx
    rw [List.mem_append, not_or] at hx
    rw [g2.out x hx.2, g1.out x hx.1]

theorem Grow.perm {h h' : Mem} {L K : List Addr} (g : Grow h h' L) (hp : L.Perm K) :
    Grow h h' K :=
  ⟨hp.nodup_iff.1 g.nodup, fun x hx => g.fresh x (hp.mem_iff.2 hx),
    fun x hx => g.live x (hp.mem_iff.2 hx), fun x hx => g.out x fun hm => hx (hp.mem_iff.1 hm)⟩

theorem Grow.upd {h h' : Mem} {L : List Addr} (g : Grow h h' L) {a : Addr} (ha : a ∈ L) (o : Obj) :
    Grow h (upd h' a (some o)) L := by
  refine ⟨g.nodup, g.fresh, fun x hx => ?_, fun x hx => ?_⟩
  · by_cases e : x = a
    · subst e; rw [upd_same]; simp
    · rw [upd_ne _ _ e]; exact g.live x hx
  · rw [upd_ne _ _ (fun e : x = a => hx (e ▸ ha))]; exact g.out x hx

/-- The allocator returns addresses at which nothing is allocated. -/
def Good (al : Alloc) : Prop := ∀ h a, al h = some a → h a = none

/-- All allocations are below some address. -/
def Bounded (h : Mem) : Prop := ∃ K, ∀ x, K ≤ x → h x = none

/-- The allocator does not fail while memory is finite. -/
def Total (al : Alloc) : Prop := ∀ h, Bounded h → al h ≠ none

theorem Grow.bounded {h h' : Mem} {L : List Addr} (g : Grow h h' L) (hb : Bounded h) :
    Bounded h' := by
  obtain ⟨K, hK⟩ := hb
  refine ⟨max K (L.foldr max 0 + 1), fun x hx => ?_⟩
  have hn : x ∉ L := by
    intro hm
    have : ∀ (l : List Nat), x ∈ l → x ≤ l.foldr max 0 := by
      intro l
      induction l with
      | nil => intro h; simp at h
      | cons b l ih =>
        intro h
        rcases List.mem_cons.1 h with rfl | h
        · exact le_max_left _ _
        · exact le_trans (ih h) (le_max_right _ _)
    have h1 := this L hm
    have h2 : L.foldr max 0 + 1 ≤ x := le_trans (le_max_right _ _) hx
    exact absurd (le_trans h2 h1) (Nat.not_succ_le_self _)
  rw [g.out x hn]
  exact hK x (le_trans (le_max_left _ _) hx)

theorem minus_bounded {h : Mem} {L : List Addr} (hb : Bounded h) : Bounded (minus h L) := by
  obtain ⟨K, hK⟩ := hb
  refine ⟨K, fun x hx => ?_⟩
  unfold minus
  split
  · rfl
  · exact hK x hx

section

variable {al : Alloc} {E : Prop}

theorem wp_malloc (ha : Good al) (hE : E ∨ Total al) {h : Mem} (hb : Bounded h) :
    (malloc al h).wp E fun r => Grow h r.2 [r.1] ∧ r.2 r.1 = some .raw ∧ Bounded r.2 := by
  unfold malloc
  cases e : al h with
  | none =>
    rcases hE with hE | hE
    · exact hE
    · exact absurd e (hE h hb)
  | some a =>
    show Grow h (Bml.upd h a _) [a] ∧ _ ∧ Bounded (Bml.upd h a _)
    have g : Grow h (Bml.upd h a (some .raw)) [a] := by
      refine ⟨List.nodup_singleton a, ?_, ?_, ?_⟩
      · intro x hx; rw [List.mem_singleton.1 hx]; exact ha h a e
      · intro x hx; rw [List.mem_singleton.1 hx, upd_same]; simp
      · intro x hx; exact upd_ne _ _ fun e => hx (by simp [e])
    exact ⟨g, upd_same .., g.bounded hb⟩

theorem wp_mallocs (ha : Good al) (hE : E ∨ Total al) (n : Nat) {h : Mem} (hb : Bounded h) :
    (mallocs al n h).wp E fun r => r.1.length = n ∧ Grow h r.2 r.1 ∧
      (∀ x, x ∈ r.1 → r.2 x = some .raw) ∧ Bounded r.2 := by
  induction n generalizing h with
  | zero => exact ⟨rfl, Grow.refl h, fun x hx => absurd hx List.not_mem_nil, hb⟩
  | succ n ih =>
    unfold mallocs
    rw [Res.wp_bind]
    refine Res.wp_mono (wp_malloc ha hE hb) ?_
    rintro ⟨a, h1⟩ ⟨g1, e1, b1⟩
    simp only at g1 e1 b1 ⊢
    rw [Res.wp_bind]
    refine Res.wp_mono (ih b1) ?_
    rintro ⟨L, h2⟩ ⟨hl, g2, e2, b2⟩
    simp only at hl g2 e2 b2 ⊢
    refine ⟨by simp [hl], g1.trans g2, ?_, b2⟩
    intro x hx
    rcases List.mem_cons.1 hx with rfl | hx
    · show h2 _ = _
      rw [g2.out _ fun hm => g1.disj g2 (List.mem_singleton.2 rfl) hm]
      exact e1
    · exact e2 x hx

theorem store_eq {h : Mem} {a : Addr} {o : Obj} (ha : h a ≠ none) :
    store a o h = .ok (upd h a (some o)) := by
  unfold store
  cases e : h a with
  | none => exact absurd e ha
  | some _ => rfl

theorem wp_newDomain (ha : Good al) (hE : E ∨ Total al) {h : Mem} (hb : Bounded h) :
    (newDomain al h).wp E fun r => ∃ L, Grow h r.2 L ∧ DomAt r.2 r.1 L ∧ Bounded r.2 := by
  unfold newDomain
  rw [Res.wp_bind]
  refine Res.wp_mono (wp_mallocs ha hE 6 hb) ?_
  rintro ⟨L, h1⟩ ⟨hl, g, e, b⟩
  simp only at hl g e b ⊢
  match L, hl with
  | [d, a, b', c, e', f], _ =>
    simp only
    rw [store_eq (g.live d (by simp))]
    have g' := g.upd (a := d) (by simp) (.domain a b' c e' f)
    refine ⟨[a, b', c, e', f, d], g'.perm ?_, ⟨a, b', c, e', f, upd_same .., rfl, ?_⟩,
      g'.bounded hb⟩
    · exact (List.perm_append_comm (l₁ := [d]) (l₂ := [a, b', c, e', f]))
    · intro x hx
      have hne : x ≠ d := by
        rintro rfl
        exact (List.nodup_cons.1 g.nodup).1 hx
      show upd h1 d _ x = _
      rw [upd_ne _ _ hne]
      exact e x (List.mem_cons_of_mem _ hx)

/-- What construction gives: the new allocations belong to the new matrix. -/
def Made (h : Mem) (r : Addr × Mem) : Prop :=
  ∃ L, Grow h r.2 L ∧ OwnLocal r.2 r.1 L ∧ Bounded r.2

theorem wp_newDense (ha : Good al) (hE : E ∨ Total al) (hd : Hdr) {h : Mem} (hb : Bounded h) :
    (newDense al hd h).wp E (Made h) := by
  unfold newDense
  rw [Res.wp_bind]
  refine Res.wp_mono (wp_mallocs ha hE 2 hb) ?_
  rintro ⟨L, h1⟩ ⟨hl, g, e, b⟩
  simp only at hl g e b ⊢
  match L, hl with
  | [a, m], _ =>
    simp only [Res.wp_bind]
    refine Res.wp_mono (wp_newDomain ha hE b) ?_
    rintro ⟨d1, h2⟩ ⟨L1, g1, D1, b1⟩
    simp only at g1 D1 b1 ⊢
    refine Res.wp_mono (wp_newDomain ha hE b1) ?_
    rintro ⟨d2, h3⟩ ⟨L2, g2, D2, b2⟩
    simp only at g2 D2 b2 ⊢
    have gg := (g.trans g1).trans g2
    rw [store_eq (gg.live a (by simp))]
    have g' := gg.upd (a := a) (by simp) (.dense hd m d1 d2)
    have hne : m ≠ a := fun e => (List.nodup_cons.1 g.nodup).1 (by simp [e])
    have hnm : ∀ x, x ∈ L1 → x ≠ a := fun x hx e =>
      g.disj g1 (List.mem_cons_self) (e ▸ hx)
    have hnm2 : ∀ x, x ∈ L2 → x ≠ a := fun x hx e =>
      (g.trans g1).disj g2 (List.mem_append_left _ List.mem_cons_self) (e ▸ hx)
    refine ⟨L1 ++ (L2 ++ [m, a]), g'.perm ?_, .dense (hd := hd) (upd_same ..) (D1.frame ?_) (D2.frame ?_) ?_,
      g'.bounded hb⟩
    · refine (List.Perm.append_right _ List.perm_append_comm).trans ?_
      rw [List.append_assoc]
      refine List.Perm.append_left _ (List.perm_append_comm.trans (List.Perm.append_left _ ?_))
      exact List.Perm.swap _ _ _
    · intro x hx
      show upd h3 a _ x = _
      rw [upd_ne _ _ (hnm x hx), g2.out x fun hm => (g.trans g1).disj g2
        (List.mem_append_right _ hx) hm]
    · intro x hx
      exact upd_ne _ _ (hnm2 x hx)
    · show upd h3 a _ m = _
      rw [upd_ne _ _ hne, g2.out m fun hm => (g.trans g1).disj g2 (by simp) hm,
        g1.out m fun hm => g.disj g1 (by simp) hm]
      exact e m (by simp)

theorem wp_newEllpack (ha : Good al) (hE : E ∨ Total al) (hd : Hdr) {h : Mem} (hb : Bounded h) :
    (newEllpack al hd h).wp E (Made h) := by
  unfold newEllpack
  rw [Res.wp_bind]
  refine Res.wp_mono (wp_mallocs ha hE 4 hb) ?_
  rintro ⟨L, h1⟩ ⟨hl, g, e, b⟩
  simp only at hl g e b ⊢
  match L, hl with
  | [a, ix, nz, v], _ =>
    simp only [Res.wp_bind]
    refine Res.wp_mono (wp_newDomain ha hE b) ?_
    rintro ⟨d1, h2⟩ ⟨L1, g1, D1, b1⟩
    simp only at g1 D1 b1 ⊢
    refine Res.wp_mono (wp_newDomain ha hE b1) ?_
    rintro ⟨d2, h3⟩ ⟨L2, g2, D2, b2⟩
    simp only at g2 D2 b2 ⊢
    have gg := (g.trans g1).trans g2
    rw [store_eq (gg.live a (by simp))]
    have g' := gg.upd (a := a) (by simp) (.ellpack hd v ix nz d1 d2)
    have hnm : ∀ x, x ∈ L1 → x ≠ a := fun x hx e =>
      g.disj g1 (List.mem_cons_self) (e ▸ hx)
    have hnm2 : ∀ x, x ∈ L2 → x ≠ a := fun x hx e =>
      (g.trans g1).disj g2 (List.mem_append_left _ List.mem_cons_self) (e ▸ hx)
    refine ⟨L1 ++ (L2 ++ [v, ix, nz, a]), g'.perm ?_,
      .ellpack (hd := hd) (upd_same ..) (D1.frame ?_) (D2.frame ?_) ?_, g'.bounded hb⟩
    · refine (List.Perm.append_right _ List.perm_append_comm).trans ?_
      rw [List.append_assoc]
      refine List.Perm.append_left _ (List.perm_append_comm.trans (List.Perm.append_left _ ?_))
      exact (List.perm_append_comm (l₁ := [a, ix, nz]) (l₂ := [v])).trans
        (List.Perm.cons _ (List.perm_append_comm (l₁ := [a]) (l₂ := [ix, nz])))
    · intro x hx
      show upd h3 a _ x = _
      rw [upd_ne _ _ (hnm x hx), g2.out x fun hm => (g.trans g1).disj g2
        (List.mem_append_right _ hx) hm]
    · intro x hx
      exact upd_ne _ _ (hnm2 x hx)
    · intro x hx
      have hx' : x ∈ [ix, nz, v] := by
        simp only [List.mem_cons, List.not_mem_nil, or_false] at hx ⊢
        tauto
      have hx'' : x ∈ [a, ix, nz, v] := List.mem_cons_of_mem _ hx'
      have hne : x ≠ a := fun e => (List.nodup_cons.1 g.nodup).1 (e ▸ hx')
      show upd h3 a _ x = _
      rw [upd_ne _ _ hne,
        g2.out x fun hm => (g.trans g1).disj g2 (List.mem_append_left _ hx'') hm,
        g1.out x fun hm => g.disj g1 hx'' hm]
      exact e x hx''

theorem wp_newRows (ha : Good al) (hE : E ∨ Total al) (n : Nat) {h : Mem} (hb : Bounded h) :
    (newRows al n h).wp E fun r => ∃ L, Grow h r.2 L ∧ RowsAt r.2 r.1 L ∧ Bounded r.2 := by
  induction n generalizing h with
  | zero => exact ⟨[], Grow.refl h, .nil, hb⟩
  | succ n ih =>
    unfold newRows
    rw [Res.wp_bind]
    refine Res.wp_mono (wp_mallocs ha hE 3 hb) ?_
    rintro ⟨L, h1⟩ ⟨hl, g, e, b⟩
    simp only at hl g e b ⊢
    match L, hl with
    | [r, c, v], _ =>
      simp only
      rw [store_eq (g.live r (by simp)), Res.bind_ok, Res.wp_bind]
      have g' := g.upd (a := r) (by simp) (.row c v)
      refine Res.wp_mono (ih (g'.bounded hb)) ?_
      rintro ⟨L, h2⟩ ⟨K, g2, R2, b2⟩
      simp only at g2 R2 b2 ⊢
      have hr := (List.nodup_cons.1 g.nodup).1
      refine ⟨[v, c, r] ++ K, (g'.trans g2).perm (List.Perm.append_right _ ?_), .cons ?_ ?_ ?_ R2,
        b2⟩
      · exact (List.reverse_perm [r, c, v]).symm
      · show h2 r = _
        rw [g2.out r fun hm => g'.disj g2 (by simp) hm, upd_same]
      · show h2 c = _
        rw [g2.out c fun hm => g'.disj g2 (by simp) hm, upd_ne _ _ fun e => hr (by simp [e])]
        exact e c (by simp)
      · show h2 v = _
        rw [g2.out v fun hm => g'.disj g2 (by simp) hm, upd_ne _ _ fun e => hr (by simp [e])]
        exact e v (by simp)

theorem wp_newCsr (ha : Good al) (hE : E ∨ Total al) (hd : Hdr) {h : Mem} (hb : Bounded h) :
    (newCsr al hd h).wp E (Made h) := by
  unfold newCsr
  rw [Res.wp_bind]
  refine Res.wp_mono (wp_mallocs ha hE 2 hb) ?_
  rintro ⟨L, h1⟩ ⟨hl, g, e, b⟩
  simp only at hl g e b ⊢
  match L, hl with
  | [a, data], _ =>
    simp only [Res.wp_bind]
    refine Res.wp_mono (wp_newRows ha hE hd.N b) ?_
    rintro ⟨rs, h2⟩ ⟨K, g2, R2, b2⟩
    simp only at g2 R2 b2 ⊢
    have gg := g.trans g2
    rw [store_eq (gg.live data (by simp)), Res.wp_ok]
    have g' := gg.upd (a := data) (by simp) (.rows rs)
    rw [store_eq (g'.live a (by simp))]
    have g'' := g'.upd (a := a) (by simp) (.csr hd data)
    have hne : data ≠ a := fun e => (List.nodup_cons.1 g.nodup).1 (by simp [e])
    have hd' : ∀ x, x ∈ K → x ∉ [a, data] := fun x hx hm => g.disj g2 hm hx
    refine ⟨K ++ [data, a], g''.perm ?_, .csr (hd := hd) (upd_same ..) ?_ (R2.frame ?_),
      g''.bounded hb⟩
    · exact List.perm_append_comm.trans (List.Perm.append_left _ (List.Perm.swap _ _ _))
    · show upd (upd h2 data _) a _ data = _
      rw [upd_ne _ _ hne, upd_same]
    · intro x hx
      have := hd' x hx
      simp only [List.mem_cons, List.not_mem_nil, or_false, not_or] at this
      show upd (upd h2 data _) a _ x = _
      rw [upd_ne _ _ this.1, upd_ne _ _ this.2]

/-- Construction of a block-ELLPACK matrix with `n` blocks. -/
theorem wp_newBlocks (ha : Good al) (hE : E ∨ Total al) (hd : Hdr) (n : Nat) {h : Mem}
    (hb : Bounded h) :
    (do
      let (L, h) ← mallocs al 5 h
      match L with
      | [a, bs, ix, nz, p'] => do
        let (bl', h) ← mallocs al n h
        let h ← store p' (.blocks bl') h
        let h ← store a (.ellblock hd p' ix nz bs) h
        pure (a, h)
      | _ => .ub : Res (Addr × Mem)).wp E (Made h) := by
  rw [Res.wp_bind]
  refine Res.wp_mono (wp_mallocs ha hE 5 hb) ?_
  rintro ⟨L, h1⟩ ⟨hl, g, e, b⟩
  simp only at hl g e b ⊢
  match L, hl with
  | [a, bs, ix, nz, p], _ =>
    simp only [Res.wp_bind]
    refine Res.wp_mono (wp_mallocs ha hE n b) ?_
    rintro ⟨bl, h2⟩ ⟨_, g2, e2, b2⟩
    simp only at g2 e2 b2 ⊢
    have gg := g.trans g2
    rw [store_eq (gg.live p (by simp)), Res.wp_ok]
    have g' := gg.upd (a := p) (by simp) (.blocks bl)
    rw [store_eq (g'.live a (by simp))]
    have g'' := g'.upd (a := a) (by simp) (.ellblock hd p ix nz bs)
    have hnd := g.nodup
    simp only [List.nodup_cons, List.mem_cons, List.not_mem_nil, or_false, not_or, List.nodup_nil,
      and_true, not_false_eq_true] at hnd
    obtain ⟨⟨n1, n2, n3, n4⟩, ⟨n5, n6, n7⟩, ⟨n8, n9⟩, n10⟩ := hnd
    have hd' : ∀ x, x ∈ bl → x ≠ a ∧ x ≠ p := fun x hx =>
      ⟨fun e => g.disj g2 (by simp [e]) hx, fun e => g.disj g2 (by simp [e]) hx⟩
    refine ⟨bl ++ [p, ix, nz, bs, a], g''.perm ?_, .ellblock (hd := hd) (upd_same ..) ?_ ?_ ?_,
      g''.bounded hb⟩
    · refine List.perm_append_comm.trans (List.Perm.append_left _ ?_)
      refine (List.perm_append_comm (l₁ := [a, bs, ix, nz]) (l₂ := [p])).trans
        (List.Perm.cons _ ?_)
      refine (List.perm_append_comm (l₁ := [a, bs]) (l₂ := [ix, nz])).trans ?_
      exact List.Perm.cons _ (List.Perm.cons _ (List.Perm.swap _ _ _))
    · show upd (upd h2 p _) a _ p = _
      rw [upd_ne _ _ (Ne.symm n4), upd_same]
    · intro x hx
      show upd (upd h2 p _) a _ x = _
      rw [upd_ne _ _ (hd' x hx).1, upd_ne _ _ (hd' x hx).2]
      exact e2 x hx
    · intro x hx
      have hx' : x ≠ a ∧ x ≠ p := by
        simp only [List.mem_cons, List.not_mem_nil, or_false] at hx
        rcases hx with rfl | rfl | rfl
        · exact ⟨Ne.symm n2, n9⟩
        · exact ⟨Ne.symm n3, n10⟩
        · exact ⟨Ne.symm n1, n7⟩
      have hx'' : x ∈ [a, bs, ix, nz, p] := by
        simp only [List.mem_cons, List.not_mem_nil, or_false] at hx ⊢
        tauto
      show upd (upd h2 p _) a _ x = _
      rw [upd_ne _ _ hx'.1, upd_ne _ _ hx'.2, g2.out x fun hm => g.disj g2 hx'' hm]
      exact e x hx''

theorem newEllblock_eq (hd : Hdr) (h : Mem) :
    newEllblock al hd h = (do
      let (L, h) ← mallocs al 5 h
      match L with
      | [a, bs, ix, nz, p'] => do
        let (bl', h) ← mallocs al 0 h
        let h ← store p' (.blocks bl') h
        let h ← store a (.ellblock hd p' ix nz bs) h
        pure (a, h)
      | _ => .ub : Res (Addr × Mem)) := rfl

theorem wp_newEllblock (ha : Good al) (hE : E ∨ Total al) (hd : Hdr) {h : Mem} (hb : Bounded h) :
    (newEllblock al hd h).wp E (Made h) := by
  rw [newEllblock_eq]
  exact wp_newBlocks ha hE hd 0 hb

/-- Arguments with which a matrix can be made. -/
def ValidLocal (t : Typ) (hd : Hdr) : Prop :=
  t ≠ .uninitialized ∧ t ≠ .distributed2d ∧ hd.prec ≠ .uninitialized ∧ (t = .ellpack → 0 < hd.M)

theorem wp_zeroLocal (ha : Good al) (hE : E ∨ Total al) {t : Typ} {hd : Hdr}
    (hv : E ∨ ValidLocal t hd) {h : Mem} (hb : Bounded h) :
    (zeroLocal al t hd h).wp E (Made h) := by
  unfold zeroLocal
  rw [Res.wp_ite]
  constructor
  · rintro ⟨h1, h2⟩
    rcases hv with hv | hv
    · exact hv
    · exact absurd (hv.2.2.2 h1) (by omega)
  · intro _
    unfold newLocal
    have hp : ∀ x : Res (Addr × Mem), x.wp E (Made h) →
        (if hd.prec = .uninitialized then Res.error else x).wp E (Made h) := by
      intro x hx
      rw [Res.wp_ite]
      refine ⟨fun e => ?_, fun _ => hx⟩
      rcases hv with hv | hv
      · exact hv
      · exact absurd e hv.2.2.1
    cases t with
    | uninitialized => exact hv.elim id fun hv => absurd rfl hv.1
    | distributed2d => exact hv.elim id fun hv => absurd rfl hv.2.1
    | dense => exact hp _ (wp_newDense ha hE hd hb)
    | ellpack => exact hp _ (wp_newEllpack ha hE hd hb)
    | csr => exact hp _ (wp_newCsr ha hE hd hb)
    | ellblock => exact hp _ (wp_newEllblock ha hE hd hb)

theorem wp_copyLocal (ha : Good al) (hE : E ∨ Total al) {h : Mem} (hb : Bounded h) {l : Addr}
    {L : List Addr} (hO : OwnLocal h l L) : (copyLocal al l h).wp E (Made h) := by
  unfold copyLocal
  cases hO with
  | dense h1 _ _ _ => simp only [h1]; exact wp_newDense ha hE _ hb
  | ellpack h1 _ _ _ => simp only [h1]; exact wp_newEllpack ha hE _ hb
  | csr h1 _ _ => simp only [h1]; exact wp_newCsr ha hE _ hb
  | ellblock h1 h2 _ _ => simp only [h1, h2]; exact wp_newBlocks ha hE _ _ hb

end

end Bml.Handle
