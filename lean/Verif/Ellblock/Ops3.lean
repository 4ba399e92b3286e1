import Verif.Ellblock.Ops2

/-!
# Block-ELLPACK: whole-matrix loops, constructors, copies
-/

set_option linter.unusedSectionVars false

namespace Bml

namespace EllB

variable {R : Type} {E : Prop}

/-! ## All pointer cells -/

/-- The pointer cells hold the blocks `T`: every cell is NULL or has a live allocation of its own. -/
structure Slots (A : EllB R) (T : Nat → Option (Arr R)) : Prop where
  null : ∀ k, k < A.ptr.size → T k = none → A.ptr.get k = none
  live : ∀ k b, k < A.ptr.size → T k = some b → ∃ a, A.ptr.get k = some a ∧ A.heap a = some b
  own : ∀ k k' a, k < A.ptr.size → k' < A.ptr.size → A.ptr.get k = some a → A.ptr.get k' = some a →
    k = k'
  fresh : ∀ a, A.next ≤ a → A.heap a = none

section
variable {A : EllB R} {T : Nat → Option (Arr R)}

theorem Slots.lt_next (h : A.Slots T) {k a : Nat} (hk : k < A.ptr.size)
    (hp : A.ptr.get k = some a) : a < A.next := by
  by_contra hc
  have := h.fresh a (by omega)
  cases hT : T k with
  | none => rw [h.null k hk hT] at hp; cases hp
  | some b =>
    obtain ⟨a', h1, h2⟩ := h.live k b hk hT
    rw [hp] at h1
    cases h1
    rw [this] at h2
    cases h2

theorem Slots.congr (h : A.Slots T) {T' : Nat → Option (Arr R)}
    (he : ∀ k, k < A.ptr.size → T' k = T k) : A.Slots T' :=
  ⟨fun k hk hn => h.null k hk (by rw [← he k hk]; exact hn),
    fun k b hk hb => h.live k b hk (by rw [← he k hk]; exact hb), h.own, h.fresh⟩

/-- Allocating into a cell. -/
theorem Slots.alloc (h : A.Slots T) {ind : Nat} (hi : ind < A.ptr.size) (b : Arr R) :
    ∃ A', A.alloc ind b = .ok A' ∧ A'.Slots (upd T ind (some b)) ∧ Same A A' ∧
      A'.nnzb = A.nnzb ∧ A'.indexb = A.indexb ∧ A'.ptr.size = A.ptr.size := by
  unfold EllB.alloc
  rw [Arr.write_ok _ hi, Res.bind_ok]
  refine ⟨_, rfl, ⟨?_, ?_, ?_, ?_⟩, ⟨rfl, rfl, rfl, rfl, rfl⟩, rfl, rfl, rfl⟩
  · intro k hk hn
    by_cases he : k = ind
    · subst he; rw [upd_same] at hn; cases hn
    · rw [upd_ne _ _ he] at hn
      show upd A.ptr.get ind _ k = none
      rw [upd_ne _ _ he]
      exact h.null k hk hn
  · intro k c hk hc
    show ∃ a, upd A.ptr.get ind _ k = some a ∧ upd A.heap A.next (some b) a = some c
    by_cases he : k = ind
    · subst he
      rw [upd_same] at hc ⊢
      cases hc
      exact ⟨A.next, rfl, by rw [upd_same]⟩
    · rw [upd_ne _ _ he] at hc ⊢
      obtain ⟨a, h1, h2⟩ := h.live k c hk hc
      have := h.lt_next hk h1
      exact ⟨a, h1, by rw [upd_ne _ _ (by omega)]; exact h2⟩
  · intro k k' a hk hk' h1 h2
    replace h1 : upd A.ptr.get ind (some A.next) k = some a := h1
    replace h2 : upd A.ptr.get ind (some A.next) k' = some a := h2
    by_cases he : k = ind
    · by_cases he' : k' = ind
      · rw [he, he']
      · rw [he, upd_same] at h1
        cases h1
        rw [upd_ne _ _ he'] at h2
        have := h.lt_next hk' h2
        omega
    · rw [upd_ne _ _ he] at h1
      by_cases he' : k' = ind
      · rw [he', upd_same] at h2
        cases h2
        have := h.lt_next hk h1
        omega
      · rw [upd_ne _ _ he'] at h2
        exact h.own k k' a hk hk' h1 h2
  · intro a ha
    show upd A.heap A.next (some b) a = none
    replace ha : A.next + 1 ≤ a := ha
    rw [upd_ne _ _ (by omega)]
    exact h.fresh a (by omega)

theorem Slots.block (h : A.Slots T) {ind : Nat} (hi : ind < A.ptr.size) {b : Arr R}
    (hb : T ind = some b) : A.block ind = .ok b := by
  obtain ⟨a, h1, h2⟩ := h.live ind b hi hb
  unfold EllB.block
  rw [Arr.read_ok hi, Res.bind_ok, h1]
  simp only [h2]

theorem Slots.blockAssert (h : A.Slots T) {ind : Nat} (hi : ind < A.ptr.size) {b : Arr R}
    (hb : T ind = some b) : A.blockAssert ind = .ok b := by
  obtain ⟨a, h1, h2⟩ := h.live ind b hi hb
  unfold EllB.blockAssert
  rw [Arr.read_ok hi, Res.bind_ok, h1]
  simp only [h2]

theorem Slots.read_none (h : A.Slots T) {ind : Nat} (hi : ind < A.ptr.size) (hb : T ind = none) :
    A.ptr.read ind = .ok none := by
  rw [Arr.read_ok hi, h.null ind hi hb]

theorem Slots.read_some (h : A.Slots T) {ind : Nat} (hi : ind < A.ptr.size) {b : Arr R}
    (hb : T ind = some b) : ∃ a, A.ptr.read ind = .ok (some a) := by
  obtain ⟨a, h1, -⟩ := h.live ind b hi hb
  exact ⟨a, by rw [Arr.read_ok hi, h1]⟩

/-- Writing to a live block. -/
theorem Slots.putBlock (h : A.Slots T) {ind : Nat} (hi : ind < A.ptr.size) {b : Arr R}
    (hb : T ind = some b) (b' : Arr R) :
    ∃ A', A.putBlock ind b' = .ok A' ∧ A'.Slots (upd T ind (some b')) ∧ Same A A' ∧
      A'.nnzb = A.nnzb ∧ A'.indexb = A.indexb ∧ A'.ptr.size = A.ptr.size := by
  obtain ⟨a, h1, h2⟩ := h.live ind b hi hb
  unfold EllB.putBlock
  rw [Arr.read_ok hi, Res.bind_ok, h1]
  simp only [h2]
  refine ⟨_, rfl, ⟨?_, ?_, h.own, ?_⟩, ⟨rfl, rfl, rfl, rfl, rfl⟩, rfl, rfl, rfl⟩
  · intro k hk hn
    by_cases he : k = ind
    · subst he; rw [upd_same] at hn; cases hn
    · rw [upd_ne _ _ he] at hn
      exact h.null k hk hn
  · intro k c hk hc
    show ∃ a', A.ptr.get k = some a' ∧ upd A.heap a (some b') a' = some c
    by_cases he : k = ind
    · subst he
      rw [upd_same] at hc
      cases hc
      exact ⟨a, h1, by rw [upd_same]⟩
    · rw [upd_ne _ _ he] at hc
      obtain ⟨a', h3, h4⟩ := h.live k c hk hc
      refine ⟨a', h3, ?_⟩
      rw [upd_ne]
      · exact h4
      · rintro rfl
        exact he (h.own k ind _ hk hi h3 h1)
  · intro a' ha'
    show upd A.heap a (some b') a' = none
    rw [upd_ne]
    · exact h.fresh a' ha'
    · rintro rfl
      rw [h.fresh a' ha'] at h2
      cases h2

theorem Slots.of_eq (h : A.Slots T) {A' : EllB R} (hp : A'.ptr = A.ptr) (hh : A'.heap = A.heap)
    (hn : A'.next = A.next) : A'.Slots T := by
  obtain ⟨h1, h2, h3, h4⟩ := h
  refine ⟨?_, ?_, ?_, ?_⟩
  · rw [hp]; exact h1
  · rw [hp, hh]; exact h2
  · rw [hp]; exact h3
  · rw [hn, hh]; exact h4

end

section
variable [AddCommMonoid R] {A : EllB R} {L : Nat → BRow R} {N : Nat} {a : Spec.Mat R}
  {T : Nat → Option (Arr R)}

/-- The rows of a matrix given by its pointer cells. -/
theorem Slots.rows_of (h : A.Slots T) (cols : Nat → List Nat)
    (hbs : A.bsize.size = A.NB) (hnzs : A.nnzb.size = A.NB) (hixs : A.indexb.size = A.NB * A.MB)
    (hps : A.ptr.size = A.NB * A.MB) (hdim : A.N = N) (hN : off A.bsize.get A.NB = N)
    (hnz : ∀ ib, ib < A.NB → A.nnzb.get ib = (cols ib).length)
    (hle : ∀ ib, ib < A.NB → (cols ib).length ≤ A.MB)
    (hnd : ∀ ib, ib < A.NB → (cols ib).Nodup)
    (hlt : ∀ ib, ib < A.NB → ∀ c ∈ cols ib, c < A.NB)
    (hix : ∀ ib jp c, ib < A.NB → (cols ib)[jp]? = some c → A.indexb.get (ib * A.MB + jp) = c)
    (hT : ∀ ib jp c, ib < A.NB → (cols ib)[jp]? = some c → ∃ b, T (ib * A.MB + jp) = some b ∧
      A.bsize.get ib * A.bsize.get c ≤ b.size ∧ ∀ ii jj, ii < A.bsize.get ib → jj < A.bsize.get c →
        b.get (ii * A.bsize.get c + jj) = a (off A.bsize.get ib + ii) (off A.bsize.get c + jj))
    (hz : ∀ ib jb ii jj, ib < A.NB → jb < A.NB → jb ∉ cols ib → ii < A.bsize.get ib →
      jj < A.bsize.get jb → a (off A.bsize.get ib + ii) (off A.bsize.get jb + jj) = 0) :
    ∃ L, A.Rows N L a ∧ ∀ ib, ib < A.NB → (L ib).map Prod.fst = cols ib := by
  set L : Nat → BRow R := fun ib => (cols ib).mapIdx fun jp c =>
    (c, (T (ib * A.MB + jp)).getD ⟨0, fun _ => 0⟩) with hL
  have hget : ∀ ib jp, (L ib)[jp]? = ((cols ib)[jp]?).map fun c =>
      (c, (T (ib * A.MB + jp)).getD ⟨0, fun _ => 0⟩) := by
    intro ib jp
    rw [hL]
    simp only [List.getElem?_mapIdx]
  have hfst : ∀ ib, (L ib).map Prod.fst = cols ib := by
    intro ib
    apply List.ext_getElem?
    intro jp
    rw [List.getElem?_map, hget]
    cases (cols ib)[jp]? <;> rfl
  have hlen : ∀ ib, (L ib).length = (cols ib).length := by
    intro ib
    rw [← hfst ib, List.length_map]
  have hslot : ∀ ib jp jb b, ib < A.NB → (L ib)[jp]? = some (jb, b) →
      (cols ib)[jp]? = some jb ∧ T (ib * A.MB + jp) = some b ∧
      A.bsize.get ib * A.bsize.get jb ≤ b.size ∧
      ∀ ii jj, ii < A.bsize.get ib → jj < A.bsize.get jb →
        b.get (ii * A.bsize.get jb + jj) = a (off A.bsize.get ib + ii) (off A.bsize.get jb + jj) := by
    intro ib jp jb b hib hs
    rw [hget] at hs
    cases hc : (cols ib)[jp]? with
    | none => rw [hc] at hs; cases hs
    | some c =>
      rw [hc] at hs
      obtain ⟨b', h1, h2, h3⟩ := hT ib jp c hib hc
      rw [h1] at hs
      simp only [Option.map_some, Option.getD_some, Option.some.injEq, Prod.mk.injEq] at hs
      obtain ⟨rfl, rfl⟩ := hs
      exact ⟨rfl, h1, h2, h3⟩
  have hgood : ∀ ib, ib < A.NB → GoodRow A.NB A.bsize.get ib (L ib) := by
    intro ib hib
    refine ⟨by rw [hfst]; exact hnd ib hib, ?_, ?_⟩
    · intro p hp
      exact hlt ib hib p.1 (by rw [← hfst ib]; exact List.mem_map.2 ⟨p, hp, rfl⟩)
    · rintro ⟨c, b⟩ hp
      obtain ⟨jp, hjp⟩ := List.mem_iff_getElem?.1 hp
      exact (hslot ib jp c b hib hjp).2.2.1
  refine ⟨L, ⟨⟨hbs, hnzs, hixs, hps, ?_, ?_, ?_, ?_, h.fresh⟩, hgood, hdim, hN, ?_⟩,
    fun ib _ => hfst ib⟩
  · intro ib hib; rw [hlen]; exact hnz ib hib
  · intro ib hib; rw [hlen]; exact hle ib hib
  · intro ib jp jb b hib hs
    obtain ⟨h1, h2, -⟩ := hslot ib jp jb b hib hs
    obtain ⟨hjp, -⟩ := List.getElem?_eq_some_iff.1 h1
    have := hle ib hib
    exact ⟨hix ib jp jb hib h1, h.live _ b (by rw [hps]; exact addr_lt hib (by omega)) h2⟩
  · intro ib jp ib' jp' hib hjp hib' hjp' he
    have k1 := hle ib hib
    have k2 := hle ib' hib'
    rw [hlen] at hjp hjp'
    have l1 : ib * A.MB + jp < A.ptr.size := by rw [hps]; exact addr_lt hib (by omega)
    have l2 : ib' * A.MB + jp' < A.ptr.size := by rw [hps]; exact addr_lt hib' (by omega)
    obtain ⟨b, h1, -⟩ := hT ib jp _ hib (List.getElem?_eq_getElem hjp)
    obtain ⟨x, h2, -⟩ := h.live _ b l1 h1
    have := h.own _ _ x l1 l2 h2 (he ▸ h2)
    exact addr_inj (by omega) (by omega) this
  · intro ib jb ii jj h1 h2 h3 h4
    by_cases hm : jb ∈ (L ib).map Prod.fst
    · obtain ⟨⟨c, b⟩, hp, rfl⟩ := List.mem_map.1 hm
      obtain ⟨jp, hjp⟩ := List.mem_iff_getElem?.1 hp
      rw [val_of_mem (hgood ib h1).nodup hp]
      exact (hslot ib jp c b h1 hjp).2.2.2 ii jj h3 h4
    · rw [val_of_not_mem hm]
      rw [hfst] at hm
      exact (hz ib jb ii jj h1 h2 hm h3 h4).symm

theorem div_addr {ib jp m : Nat} (h : jp < m) : (ib * m + jp) / m = ib ∧ (ib * m + jp) % m = jp := by
  constructor
  · rw [Nat.mul_comm, Nat.mul_add_div (by omega), Nat.div_eq_of_lt h, Nat.add_zero]
  · rw [Nat.mul_comm, Nat.mul_add_mod, Nat.mod_eq_of_lt h]

theorem addr_div {k n m : Nat} (h : k < n * m) : k / m < n ∧ k % m < m ∧ k / m * m + k % m = k := by
  have hm : 0 < m := by
    rcases Nat.eq_zero_or_pos m with h' | h'
    · subst h'; simp at h
    · exact h'
  refine ⟨?_, Nat.mod_lt _ hm, Nat.div_add_mod' k m⟩
  rw [Nat.mul_comm] at h
  exact Nat.div_lt_of_lt_mul h

/-- The blocks by flat position. -/
def flat (L : Nat → BRow R) (MB : Nat) (k : Nat) : Option (Arr R) :=
  ((L (k / MB))[k % MB]?).map Prod.snd

theorem flat_addr {ib jp MB : Nat} (h : jp < MB) :
    flat L MB (ib * MB + jp) = ((L ib)[jp]?).map Prod.snd := by
  obtain ⟨h1, h2⟩ := div_addr (ib := ib) h
  unfold flat
  rw [h1, h2]

/-- A clean matrix, seen by its pointer cells. -/
theorem Is.slots (h : A.Is L) (hc : A.Clean) : A.Slots (flat L A.MB) := by
  have hps := h.ptr_size
  refine ⟨?_, ?_, ?_, h.fresh⟩
  · intro k hk hn
    rw [hps] at hk
    obtain ⟨h1, h2, h3⟩ := addr_div hk
    rw [← h3]
    refine hc _ _ h1 ?_ h2
    rw [h.nz _ h1]
    by_contra hlt
    unfold flat at hn
    rw [List.getElem?_eq_getElem (by omega)] at hn
    cases hn
  · intro k b hk hb
    rw [hps] at hk
    obtain ⟨h1, h2, h3⟩ := addr_div hk
    unfold flat at hb
    cases hx : (L (k / A.MB))[k % A.MB]? with
    | none => rw [hx] at hb; cases hb
    | some p =>
      obtain ⟨c, b'⟩ := p
      rw [hx] at hb
      cases hb
      have := (h.slot _ _ c b' h1 hx).2
      rwa [h3] at this
  · intro k k' x hk hk' hx hx'
    rw [hps] at hk hk'
    obtain ⟨h1, h2, h3⟩ := addr_div hk
    obtain ⟨h1', h2', h3'⟩ := addr_div hk'
    rw [← h3] at hx ⊢
    rw [← h3'] at hx' ⊢
    have key : ∀ ib jp, ib < A.NB → jp < A.MB → A.ptr.get (ib * A.MB + jp) = some x →
        jp < (L ib).length := by
      intro ib jp hib hjp he
      by_contra hcc
      rw [hc ib jp hib (by rw [h.nz ib hib]; omega) hjp] at he
      cases he
    obtain ⟨e1, e2⟩ := h.own _ _ _ _ h1 (key _ _ h1 h2 hx) h1' (key _ _ h1' h2' hx')
      (hx.trans hx'.symm)
    rw [e1, e2]

/-! ## Read-modify-write of every stored block -/

theorem Is.mapRows (h : A.Is L) (cnt : Nat → EllB R → Res Nat)
    (body : Nat → Nat → EllB R → Res (EllB R)) (g : Nat → Nat → Arr R → Arr R)
    (hcnt : ∀ ib A' L', ib < A.NB → Same A A' → A'.Is L' → (L' ib).length = (L ib).length →
      cnt ib A' = .ok (L ib).length)
    (hbody : ∀ ib jp jb b A' L', ib < A.NB → Same A A' → A'.Is L' → (L ib)[jp]? = some (jb, b) →
      (L' ib)[jp]? = some (jb, b) →
      body ib jp A' = .ok (A'.withBlock (ib * A.MB + jp) (g ib jb b))) :
    (loop A.NB A fun ib A' => do
      let n ← cnt ib A'
      loop n A' (body ib)).wp E (fun A' =>
        A'.Is (fun ib => if ib < A.NB then (L ib).map (fun p => (p.1, g ib p.1 p.2)) else L ib) ∧
        Same A A' ∧ (A.Clean → A'.Clean) ∧ ∀ m, (∀ ib jb b, m ≤ b.size → m ≤ (g ib jb b).size) →
          A.Neat m → A'.Neat m) := by
  have hif : ∀ {A' : EllB R} {L1 L2 : Nat → BRow R}, A'.Is L1 → (∀ ib, L1 ib = L2 ib) → A'.Is L2 :=
    fun h1 h2 => (funext h2) ▸ h1
  refine wp_loop' (fun n (A' : EllB R) =>
    A'.Is (fun ib => if ib < n then (L ib).map (fun p => (p.1, g ib p.1 p.2)) else L ib) ∧
      Same A A' ∧ (A.Clean → A'.Clean) ∧ ∀ m, (∀ ib jb b, m ≤ b.size → m ≤ (g ib jb b).size) →
          A.Neat m → A'.Neat m)
    ⟨hif h (fun ib => by rw [if_neg (by omega)]), Same.refl _, id, fun _ _ h => h⟩
    ?_ (fun _ h => h)
  rintro ib hib A' ⟨hI, hs, hcl, hne⟩
  rw [hcnt ib A' _ hib hs hI (by rw [if_neg (by omega)]), Res.bind_ok]
  refine wp_loop' (fun n (A' : EllB R) =>
    A'.Is (fun ib' => if ib' < ib then (L ib').map (fun p => (p.1, g ib' p.1 p.2)) else
      if ib' = ib then ((L ib).take n).map (fun p => (p.1, g ib p.1 p.2)) ++ (L ib).drop n
      else L ib') ∧ Same A A' ∧ (A.Clean → A'.Clean) ∧
      ∀ m, (∀ ib jb b, m ≤ b.size → m ≤ (g ib jb b).size) → A.Neat m → A'.Neat m)
    ⟨hif hI (fun ib' => ?_), hs, hcl, hne⟩ ?_ ?_
  · by_cases h1 : ib' < ib
    · rw [if_pos h1, if_pos h1]
    · rw [if_neg h1, if_neg h1]
      split
      · next he => subst he; simp
      · rfl
  · rintro jp hjp A2 ⟨hI2, hs2, hcl2, hne2⟩
    obtain ⟨⟨jb, b⟩, hx⟩ : ∃ x, (L ib)[jp]? = some x := ⟨_, List.getElem?_eq_getElem hjp⟩
    have htl : (((L ib).take jp).map (fun p => (p.1, g ib p.1 p.2))).length = jp := by
      simp; omega
    have hx' : ((fun ib' => if ib' < ib then (L ib').map (fun p => (p.1, g ib' p.1 p.2)) else
      if ib' = ib then ((L ib).take jp).map (fun p => (p.1, g ib p.1 p.2)) ++ (L ib).drop jp
      else L ib') ib)[jp]? = some (jb, b) := by
      beta_reduce
      rw [if_neg (by omega), if_pos rfl, List.getElem?_append_right (by omega), htl, Nat.sub_self,
        List.getElem?_drop, Nat.add_zero, hx]
    rw [hbody ib jp jb b A2 _ hib hs2 hI2 hx hx']
    have hib2 : ib < A2.NB := by rw [hs2.NB]; exact hib
    have hw := hI2.withBlock hib2 hx' (g ib jb b)
    rw [hs2.MB] at hw
    have hneat : ∀ m, (∀ ib jb b, m ≤ b.size → m ≤ (g ib jb b).size) → A.Neat m →
        (A2.withBlock (ib * A.MB + jp) (g ib jb b)).Neat m := by
      intro m hm hA
      have h2 := hne2 m hm hA
      obtain ⟨-, x, h3, h4⟩ := hI2.slot ib jp jb b hib2 hx'
      have hl : ib * A2.MB + jp < A2.ptr.size := hI2.addr hib2 (hI2.lt_of_slot hib2 hx')
      obtain ⟨c, h5, h6⟩ := h2.live _ x hl h3
      rw [h4] at h5
      cases h5
      rw [hs2.MB] at hl
      exact h2.withBlock hl (hm ib jb b h6)
    refine ⟨hif hw (fun ib' => ?_), hs2.trans (same_withBlock _ _ _),
      fun hc => (hcl2 hc).withBlock _ _, hneat⟩
    by_cases he : ib' = ib
    · subst he
      rw [upd_same, if_neg (by omega), if_pos rfl, if_neg (by omega), if_pos rfl]
      apply List.ext_getElem?
      intro m
      rw [List.getElem?_set]
      have htl1 : (((L ib').take (jp + 1)).map (fun p => (p.1, g ib' p.1 p.2))).length = jp + 1 := by
        simp; omega
      rcases Nat.lt_trichotomy m jp with hm | rfl | hm
      · rw [if_neg (by omega), List.getElem?_append_left (by omega),
          List.getElem?_append_left (by omega), List.getElem?_map, List.getElem?_map,
          List.getElem?_take, List.getElem?_take, if_pos hm, if_pos (by omega)]
      · rw [if_pos rfl, if_pos (by simp; omega), List.getElem?_append_left (by omega),
          List.getElem?_map, List.getElem?_take, if_pos (by omega), hx]
        rfl
      · rw [if_neg (by omega), List.getElem?_append_right (by omega),
          List.getElem?_append_right (by omega), htl, htl1, List.getElem?_drop, List.getElem?_drop]
        congr 1
        omega
    · rw [upd_ne _ _ he]
      split
      · rfl
      · rfl
  · rintro A2 ⟨hI2, hs2, hcl2, hne2⟩
    refine ⟨hif hI2 (fun ib' => ?_), hs2, hcl2, hne2⟩
    by_cases h1 : ib' < ib
    · rw [if_pos h1, if_pos (by omega)]
    · rw [if_neg h1]
      split
      · next he => subst he; rw [if_pos (by omega)]; simp
      · next he => rw [if_neg (by omega)]

/-- From mapped block rows to the represented matrix. -/
theorem Rows.mapped (h : A.Rows N L a) {A' : EllB R} {g : Nat → Nat → Arr R → Arr R}
    {a' : Spec.Mat R}
    (hI : A'.Is (fun ib => if ib < A.NB then (L ib).map (fun p => (p.1, g ib p.1 p.2)) else L ib))
    (hs : Same A A') (hsz : ∀ ib jb b, ib < A.NB → (jb, b) ∈ L ib →
      A.bsize.get ib * A.bsize.get jb ≤ (g ib jb b).size)
    (hv : ∀ ib jb b ii jj, ib < A.NB → (jb, b) ∈ L ib → ii < A.bsize.get ib → jj < A.bsize.get jb →
      (g ib jb b).get (ii * A.bsize.get jb + jj) =
        a' (off A.bsize.get ib + ii) (off A.bsize.get jb + jj))
    (hz : ∀ ib jb ii jj, ib < A.NB → jb < A.NB → jb ∉ (L ib).map Prod.fst → ii < A.bsize.get ib →
      jj < A.bsize.get jb → a' (off A.bsize.get ib + ii) (off A.bsize.get jb + jj) = 0) :
    A'.Rows N (fun ib => if ib < A.NB then (L ib).map (fun p => (p.1, g ib p.1 p.2)) else L ib)
      a' := by
  have hfst : ∀ ib, ((L ib).map (fun p => (p.1, g ib p.1 p.2))).map Prod.fst =
      (L ib).map Prod.fst := by
    intro ib; rw [List.map_map]; rfl
  have hgood : ∀ ib, ib < A.NB → GoodRow A.NB A.bsize.get ib
      ((L ib).map (fun p => (p.1, g ib p.1 p.2))) := by
    intro ib hib
    have hg := h.good ib hib
    refine ⟨by rw [hfst]; exact hg.nodup, ?_, ?_⟩
    · intro p hp
      obtain ⟨q, hq, rfl⟩ := List.mem_map.1 hp
      exact hg.lt q hq
    · intro p hp
      obtain ⟨q, hq, rfl⟩ := List.mem_map.1 hp
      exact hsz ib q.1 q.2 hib hq
  refine ⟨hI, ?_, hs.N.trans h.dim, by rw [hs.bsize, hs.NB]; exact h.N_eq, ?_⟩
  · intro ib hib
    rw [hs.NB] at hib
    rw [hs.NB, hs.bsize, if_pos hib]
    exact hgood ib hib
  · intro ib jb ii jj h1 h2 h3 h4
    rw [hs.NB] at h1 h2
    rw [hs.bsize] at h3 h4 ⊢
    rw [if_pos h1]
    by_cases hm : jb ∈ (L ib).map Prod.fst
    · obtain ⟨⟨c, b⟩, hp, rfl⟩ := List.mem_map.1 hm
      rw [val_of_mem (hgood ib h1).nodup (List.mem_map.2 ⟨_, hp, rfl⟩)]
      exact hv ib c b ii jj h1 hp h3 h4
    · rw [val_of_not_mem (by rw [hfst]; exact hm), hz ib jb ii jj h1 h2 hm h3 h4]

end

end EllB

end Bml
