import Verif.Common.Domain
import Mathlib.Algebra.Order.BigOperators.Group.Finset

/-!
# Proofs about the domain decomposition
-/

namespace Bml

/-- Unbounded arithmetic, used in proofs. -/
def exactArith : Arith := ⟨fun a b => .ok (a * b), fun a b => .ok (a + b)⟩

/-- The arithmetic is exact for the parts of `N` rows of width `M`. -/
structure Arith.Fits (ar : Arith) (N M : Nat) : Prop where
  mul : ∀ a, a ≤ N → ar.mul a M = .ok (a * M)
  add : ∀ a b, a + b ≤ N → ar.add (a * M) (b * M) = .ok (a * M + b * M)

theorem exactArith_fits (N M : Nat) : exactArith.Fits N M := ⟨fun _ _ => rfl, fun _ _ _ => rfl⟩

theorem intArith_fits {N M : Nat} (h : N * M ≤ INT_MAX) : intArith.Fits N M :=
  ⟨fun a ha => if_pos (le_trans (Nat.mul_le_mul_right M ha) h),
   fun a b hab => if_pos (by rw [← Nat.add_mul]; exact le_trans (Nat.mul_le_mul_right M hab) h)⟩

/-- The first computation is the second one or undefined. -/
def Res.Below {α : Type} (r' r : Res α) : Prop := r' = r ∨ r' = .ub

namespace Res.Below

variable {α β : Type}

theorem refl (r : Res α) : r.Below r := Or.inl rfl

theorem bind {r' r : Res α} {f' f : α → Res β} (h : r'.Below r) (hf : ∀ x, (f' x).Below (f x)) :
    (r' >>= f').Below (r >>= f) := by
  rcases h with rfl | rfl
  · cases r' with
    | ok x => exact hf x
    | error => exact Or.inl rfl
    | ub => exact Or.inl rfl
  · exact Or.inr rfl

theorem loop {n : Nat} {s : α} {f' f : Nat → α → Res α} (h : ∀ k s, (f' k s).Below (f k s)) :
    (Bml.loop n s f').Below (Bml.loop n s f) := by
  induction n with
  | zero => exact refl _
  | succ n ih =>
    rw [loop_succ, loop_succ]
    exact bind ih (h n)

theorem ok {r' r : Res α} (h : r'.Below r) {x : α} (hx : r' = .ok x) : r = .ok x := by
  rcases h with rfl | rfl
  · exact hx
  · exact nomatch hx

end Res.Below

theorem intArith_mul (a b : Nat) : (intArith.mul a b).Below (exactArith.mul a b) := by
  show (if a * b ≤ INT_MAX then Res.ok (a * b) else .ub).Below (.ok (a * b))
  split
  · exact Or.inl rfl
  · exact Or.inr rfl

theorem intArith_add (a b : Nat) : (intArith.add a b).Below (exactArith.add a b) := by
  show (if a + b ≤ INT_MAX then Res.ok (a + b) else .ub).Below (.ok (a + b))
  split
  · exact Or.inl rfl
  · exact Or.inr rfl

namespace Domain

variable {E : Prop}

open Res (Below)

theorem sequentialRank_below (i : Nat) (d : Domain) :
    (sequentialRank intArith i d).Below (sequentialRank exactArith i d) := by
  unfold sequentialRank
  refine Below.bind (Below.refl _) fun _ => Below.bind (Below.refl _) fun _ => Below.bind (Below.refl _) fun _ =>
    Below.bind (Below.refl _) fun _ => Below.bind (Below.refl _) fun _ => Below.bind (Below.refl _) fun _ => ?_
  exact Below.bind (intArith_mul _ _) fun _ => Below.refl _

theorem elemRank_below (i : Nat) (d : Domain) :
    (elemRank intArith i d).Below (elemRank exactArith i d) := by
  unfold elemRank
  refine Below.bind (Below.refl _) fun _ => Below.bind (intArith_mul _ _) fun _ =>
    Below.bind (Below.refl _) fun _ => Below.bind ?_ fun _ => Below.refl _
  split
  · exact Below.refl _
  · exact Below.bind (Below.refl _) fun _ => Below.bind (Below.refl _) fun _ => intArith_add _ _

theorem updateRank_below (ps : Nat → Res Nat) (i : Nat) (d : Domain) :
    (updateRank intArith ps i d).Below (updateRank exactArith ps i d) := by
  unfold updateRank
  refine Below.bind (Below.refl _) fun _ => Below.bind (Below.refl _) fun _ => Below.bind (Below.refl _) fun _ =>
    Below.bind (Below.refl _) fun _ => Below.bind (Below.refl _) fun _ => Below.bind (Below.refl _) fun _ =>
    Below.bind (intArith_mul _ _) fun _ => Below.bind (Below.refl _) fun _ => Below.bind ?_ fun _ => Below.refl _
  split
  · exact Below.refl _
  · exact Below.bind (Below.refl _) fun _ => Below.bind (Below.refl _) fun _ => intArith_add _ _

/-- A domain that the code computes is the one of unbounded arithmetic. -/
theorem default_exact {N M p : Nat} {mode : DistMode} {junk : Nat → Nat} {cd : Nat} {d : Domain}
    (h : default N M p mode junk cd = .ok d) : defaultWith exactArith N M p mode junk cd = .ok d := by
  refine Below.ok ?_ h
  unfold default defaultWith
  cases mode with
  | sequential => exact Below.loop sequentialRank_below
  | distributed =>
    simp only
    split
    · exact Below.refl _
    · unfold distribute
      refine Below.bind (Below.refl _) fun _ => Below.bind (Below.refl _) fun _ => Below.bind (Below.refl _) fun _ =>
        Below.bind (Below.refl _) fun _ => Below.bind (Below.refl _) fun _ => Below.bind (Below.refl _) fun _ =>
        Below.bind (Below.refl _) fun _ => ?_
      exact Below.loop elemRank_below
  | graphDistributed => exact Below.refl _

theorem update_exact {ps : Nat → Res Nat} {p : Nat} {d d' : Domain} (h : update ps p d = .ok d') :
    updateWith exactArith ps p d = .ok d' := by
  refine Below.ok ?_ h
  unfold update updateWith
  exact Below.bind (Below.loop (updateRank_below ps)) fun _ => Below.refl _

/-- All arrays have one cell per rank. -/
structure Shape (d : Domain) (p : Nat) : Prop where
  rowMin : d.rowMin.size = p
  rowMax : d.rowMax.size = p
  extent : d.extent.size = p
  elements : d.elements.size = p
  displ : d.displ.size = p

/-- The first row of rank `i` in an even distribution. -/
def start (N p i : Nat) : Nat := i * (N / p) + min i (N - p * (N / p))

theorem start_succ (N p i : Nat) :
    start N p (i + 1) = start N p i + (N / p + if i < N - p * (N / p) then 1 else 0) := by
  unfold start
  rw [Nat.succ_mul]
  split <;> omega

theorem start_last (N p : Nat) (hp : 0 < p) : start N p p = N := by
  unfold start
  have h1 := Nat.div_add_mod N p
  have h2 := Nat.mod_lt N hp
  omega

theorem start_mono (N p : Nat) {i j : Nat} (h : i ≤ j) : start N p i ≤ start N p j := by
  induction j, h using Nat.le_induction with
  | base => exact le_rfl
  | succ j _ ih => rw [start_succ]; exact le_trans ih (Nat.le_add_right _ _)

theorem start_le (N : Nat) {p i : Nat} (hp : 0 < p) (h : i ≤ p) : start N p i ≤ N :=
  le_of_le_of_eq (start_mono N p h) (start_last N p hp)

theorem wp_nextRank {p i : Nat} {d : Domain} (hd : d.Shape p) (hi : i < p) (hi0 : 0 < i) :
    (nextRank i d).wp E (fun d' => d' = { d with
      rowMin := ⟨p, upd d.rowMin.get i (d.rowMax.get (i - 1))⟩,
      rowMax := ⟨p, upd d.rowMax.get i (d.rowMax.get (i - 1) + d.extent.get i)⟩ }) := by
  unfold nextRank
  rw [Arr.read_ok (by rw [hd.rowMax]; omega), Res.bind_ok,
    Arr.write_ok _ (by rw [hd.rowMin]; exact hi), Res.bind_ok,
    Arr.read_ok (by show i < d.rowMin.size; rw [hd.rowMin]; exact hi), Res.bind_ok,
    Arr.read_ok (by rw [hd.extent]; exact hi), Res.bind_ok,
    Arr.write_ok _ (by rw [hd.rowMax]; exact hi), Res.bind_ok, Res.pure_eq, Res.wp_ok]
  simp [hd.rowMin, hd.rowMax]

/-- What the `distributed` mode computes. -/
structure Even (N M p n : Nat) (d : Domain) : Prop where
  shape : d.Shape p
  ext : ∀ i, i < p → d.extent.get i = N / p + if i < N - p * (N / p) then 1 else 0
  lo : ∀ i, i < n → d.rowMin.get i = start N p i
  hi : ∀ i, i < n → d.rowMax.get i = start N p (i + 1)
  cols : d.totalCols = M

theorem Even.next {N M p i : Nat} {d : Domain} (h : Even N M p i d) (hi : i < p) (hi0 : 0 < i) :
    (nextRank i d).wp E (Even N M p (i + 1)) := by
  refine Res.wp_mono (wp_nextRank h.shape hi hi0) ?_
  rintro d' rfl
  have hm : d.rowMax.get (i - 1) = start N p i := by
    rw [h.hi (i - 1) (by omega)]; congr 1; omega
  refine ⟨⟨rfl, rfl, h.shape.extent, h.shape.elements, h.shape.displ⟩, h.ext, ?_, ?_, h.cols⟩
  · intro k hk
    simp only
    by_cases hki : k = i
    · subst hki; rw [upd_same, hm]
    · rw [upd_ne _ _ hki]; exact h.lo k (by omega)
  · intro k hk
    simp only
    by_cases hki : k = i
    · subst hki; rw [upd_same, hm, h.ext k hi, start_succ]
    · rw [upd_ne _ _ hki]; exact h.hi k (by omega)

theorem wp_distribute {ar : Arith} {N M p : Nat} (hp : 0 < p) (har : ar.Fits N M) (junk : Nat → Nat) (cd : Nat) :
    (distribute ar (alloc N M p junk) N p cd).wp E (fun d => Even N M p p d ∧
      (∀ i, i < p → d.elements.get i = d.extent.get i * M) ∧
      ∀ i, i < p → d.displ.get i = start N p i * M) := by
  have hnl : N - p * (N / p) < p := by
    have h1 := Nat.div_add_mod N p
    have h2 := Nat.mod_lt N hp
    omega
  unfold distribute
  simp only
  rw [Res.wp_bind]
  refine wp_loop' (fun n (e : Arr Nat) => e.size = p ∧ ∀ i, i < n → e.get i = N / p)
    ⟨rfl, fun i hi => by omega⟩ ?_ ?_
  · rintro n hn e ⟨h1, h2⟩
    rw [Arr.wp_write]
    refine ⟨by omega, h1, fun i hi => ?_⟩
    simp only
    by_cases hin : i = n
    · rw [hin, upd_same]
    · rw [upd_ne _ _ hin]; exact h2 i (by omega)
  rintro e0 ⟨h1, h2⟩
  rw [Res.wp_bind]
  refine wp_loop' (fun n (e : Arr Nat) => e.size = p ∧ ∀ i, i < p → e.get i =
    N / p + if i < n then 1 else 0) ⟨h1, fun i hi => by rw [h2 i hi]; simp⟩ ?_ ?_
  · rintro n hn e ⟨g1, g2⟩
    rw [Arr.read_ok (by omega), Res.bind_ok, Arr.wp_write]
    refine ⟨by omega, g1, fun i hi => ?_⟩
    simp only
    by_cases hin : i = n
    · subst hin; rw [upd_same, g2 _ hi]; simp
    · rw [upd_ne _ _ hin, g2 i hi]
      congr 1
      have : i < n + 1 ↔ i < n := by omega
      simp only [this]
  rintro e1 ⟨g1, g2⟩
  rw [Arr.write_ok _ (show 0 < (alloc N M p junk).rowMin.size from hp), Res.bind_ok,
    Arr.read_ok (by omega), Res.bind_ok,
    Arr.write_ok _ (show 0 < (alloc N M p junk).rowMax.size from hp), Res.bind_ok, Res.wp_bind]
  have hfirst : Even N M p 1 { alloc N M p junk with
      maxExtent := cd, minExtent := N / p, extent := e1,
      rowMin := ⟨(alloc N M p junk).rowMin.size, upd (alloc N M p junk).rowMin.get 0 0⟩,
      rowMax := ⟨(alloc N M p junk).rowMax.size,
        upd (alloc N M p junk).rowMax.get 0 (e1.get 0)⟩ } := by
    refine ⟨⟨rfl, rfl, g1, rfl, rfl⟩, g2, ?_, ?_, rfl⟩
    · intro i hi
      have : i = 0 := by omega
      subst this
      simp [start]
    · intro i hi
      have : i = 0 := by omega
      subst this
      simp only [upd_same]
      rw [g2 0 hp, start_succ]
      simp [start]
  have hmid : ∀ d, Even N M p p d → (loop p d (elemRank ar)).wp E (fun d => Even N M p p d ∧
      (∀ i, i < p → d.elements.get i = d.extent.get i * M) ∧
      ∀ i, i < p → d.displ.get i = start N p i * M) := by
    intro d hd
    refine wp_loop' (fun n d => Even N M p p d ∧
      (∀ i, i < n → d.elements.get i = d.extent.get i * M) ∧
      ∀ i, i < n → d.displ.get i = start N p i * M)
      ⟨hd, fun i hi => by omega, fun i hi => by omega⟩ ?_ (fun _ h => h)
    rintro n hn d1 ⟨k1, k2, k3⟩
    have hst := start_le N hp (show n + 1 ≤ p by omega)
    rw [start_succ, ← k1.ext n hn] at hst
    unfold elemRank
    rw [Arr.read_ok (by rw [k1.shape.extent]; exact hn), Res.bind_ok, k1.cols,
      har.mul _ (by omega), Res.bind_ok,
      Arr.write_ok _ (by rw [k1.shape.elements]; exact hn), Res.bind_ok, Res.wp_bind]
    refine Res.wp_mono (Q := fun x => x = start N p n * M) ?_ ?_
    · by_cases h0 : n = 0
      · subst h0; rw [if_pos rfl, Res.wp_pure]; simp [start]
      · rw [if_neg h0, Arr.read_ok (by rw [k1.shape.displ]; omega), Res.bind_ok, Res.wp_bind,
          Arr.wp_read]
        refine ⟨by show n - 1 < d1.elements.size; rw [k1.shape.elements]; omega, ?_⟩
        simp only
        have hs := start_succ N p (n - 1)
        rw [show n - 1 + 1 = n by omega] at hs
        rw [upd_ne _ _ (by omega), k3 (n - 1) (by omega), k2 (n - 1) (by omega),
          k1.ext (n - 1) (by omega), har.add _ _ (by rw [← hs]; omega), Res.wp_ok, ← Nat.add_mul, ← hs]
    · rintro x rfl
      rw [Arr.write_ok _ (by rw [k1.shape.displ]; exact hn), Res.bind_ok, Res.wp_pure]
      refine ⟨⟨⟨k1.shape.rowMin, k1.shape.rowMax, k1.shape.extent, k1.shape.elements,
        k1.shape.displ⟩, k1.ext, k1.lo, k1.hi, rfl⟩, ?_, ?_⟩
      · intro i hi
        simp only
        by_cases hin : i = n
        · subst hin; rw [upd_same]
        · rw [upd_ne _ _ hin]; exact k2 i (by omega)
      · intro i hi
        simp only
        by_cases hin : i = n
        · subst hin; rw [upd_same]
        · rw [upd_ne _ _ hin]; exact k3 i (by omega)
  by_cases hp1 : p = 1
  · subst hp1
    unfold loopFrom
    rw [show (1 - 1 - 1) = 0 from rfl, loop_zero, Res.wp_ok, if_neg (by omega), Res.pure_eq,
      Res.bind_ok]
    exact hmid _ hfirst
  · refine wp_loopFrom (fun n d => Even N M p n d) (by omega) hfirst ?_ ?_
    · intro k h1k hk d hd
      exact hd.next (by omega) (by omega)
    · intro d hd
      rw [if_pos (by omega), Res.wp_bind]
      refine Res.wp_mono (hd.next (by omega) (by omega)) ?_
      intro d' hd'
      rw [show p - 1 + 1 = p by omega] at hd'
      exact hmid d' hd'

theorem wp_sequential {ar : Arith} {N M p : Nat} (har : ar.Fits N M) (junk : Nat → Nat) (cd : Nat) :
    (defaultWith ar N M p .sequential junk cd).wp E (fun d => d.Shape p ∧ ∀ i, i < p →
      d.rowMin.get i = 0 ∧ d.rowMax.get i = N ∧ d.extent.get i = N ∧
      d.elements.get i = N * M ∧ d.displ.get i = 0) := by
  unfold defaultWith
  refine wp_loop' (fun n d => (d.Shape p ∧ d.globalRowMin = 0 ∧ d.globalRowMax = N ∧
      d.totalCols = M) ∧ ∀ i, i < n →
      d.rowMin.get i = 0 ∧ d.rowMax.get i = N ∧ d.extent.get i = N ∧
      d.elements.get i = N * M ∧ d.displ.get i = 0)
    ⟨⟨⟨rfl, rfl, rfl, rfl, rfl⟩, rfl, rfl, rfl⟩, fun i hi => by omega⟩ ?_
    (fun d h => ⟨h.1.1, h.2⟩)
  rintro n hn d ⟨⟨hs, h1, h2, h3⟩, h4⟩
  unfold sequentialRank
  rw [Arr.write_ok _ (by rw [hs.rowMin]; exact hn), Res.bind_ok,
    Arr.write_ok _ (by rw [hs.rowMax]; exact hn), Res.bind_ok,
    Arr.read_ok (by show n < d.rowMax.size; rw [hs.rowMax]; exact hn), Res.bind_ok,
    Arr.read_ok (by show n < d.rowMin.size; rw [hs.rowMin]; exact hn), Res.bind_ok,
    Arr.write_ok _ (by rw [hs.extent]; exact hn), Res.bind_ok,
    Arr.read_ok (by show n < d.extent.size; rw [hs.extent]; exact hn), Res.bind_ok, h3]
  simp only [upd_same, h1, h2, Nat.sub_zero]
  rw [har.mul N le_rfl, Res.bind_ok,
    Arr.write_ok _ (by rw [hs.elements]; exact hn), Res.bind_ok,
    Arr.write_ok _ (by rw [hs.displ]; exact hn), Res.bind_ok, Res.wp_pure]
  refine ⟨⟨⟨hs.rowMin, hs.rowMax, hs.extent, hs.elements, hs.displ⟩, rfl, rfl, rfl⟩, ?_⟩
  intro i hi
  simp only
  by_cases hin : i = n
  · subst hin; simp
  · simp only [upd_ne _ _ hin]; exact h4 i (by omega)

/-- The parts given to `p` ranks, numbered from one: in order, without gaps, all `n` of them. -/
structure Tiling (pmin pmax : Arr Nat) (p n : Nat) : Prop where
  sizeMin : pmin.size = p
  sizeMax : pmax.size = p
  first : pmin.get 0 = 1
  next : ∀ i, i + 1 < p → pmin.get (i + 1) = pmax.get i + 1
  le : ∀ i, i < p → pmin.get i ≤ pmax.get i + 1
  last : pmax.get (p - 1) = n

theorem Tiling.bounds {pmin pmax : Arr Nat} {p n : Nat} (h : Tiling pmin pmax p n) {i : Nat}
    (hi : i < p) : 1 ≤ pmin.get i ∧ pmax.get i ≤ n := by
  constructor
  · cases i with
    | zero => rw [h.first]
    | succ i => rw [h.next i hi]; omega
  · have : ∀ k, k < p → pmax.get (p - 1 - k) ≤ n := by
      intro k
      induction k with
      | zero => intro _; rw [Nat.sub_zero, h.last]
      | succ k ih =>
        intro hk
        have h1 := ih (by omega)
        have h2 := h.next (p - 1 - (k + 1)) (by omega)
        have h3 := h.le (p - 1 - k) (by omega)
        rw [show p - 1 - (k + 1) + 1 = p - 1 - k by omega] at h2
        omega
    have h1 := this (p - 1 - i) (by omega)
    rwa [show p - 1 - (p - 1 - i) = i by omega] at h1

theorem wp_partSumEllpack {pmin pmax nn : Arr Nat} {p n : Nat} (h : Tiling pmin pmax p n)
    (hn : nn.size = n) {i : Nat} (hi : i < p) :
    (partSumEllpack pmin pmax nn i).wp E (fun s =>
      s = ∑ j ∈ Finset.Ico (pmin.get i - 1) (pmax.get i), nn.get j) := by
  have hb := h.bounds hi
  have hle := h.le i hi
  unfold partSumEllpack
  rw [Arr.read_ok (by rw [h.sizeMin]; exact hi), Res.bind_ok,
    Arr.read_ok (by rw [h.sizeMax]; exact hi), Res.bind_ok, if_neg (by omega)]
  refine wp_loopFrom (fun k s => s = ∑ j ∈ Finset.Ico (pmin.get i - 1) k, nn.get j) (by omega)
    (by simp) ?_ (fun _ h => h)
  rintro k h1 h2 s rfl
  rw [Arr.read_ok (by omega), Res.bind_ok, Res.wp_pure, Finset.sum_Ico_succ_top h1]

theorem wp_partSumDense {pmin pmax nn : Arr Nat} {p n : Nat} (h : Tiling pmin pmax p n)
    (hn : nn.size = n) {i : Nat} (hi : i < p) :
    (partSumDense pmin pmax nn i).wp E (fun s =>
      s = ∑ j ∈ Finset.Ico (pmin.get i - 1) (pmax.get i), nn.get j) := by
  have hb := h.bounds hi
  have hle := h.le i hi
  unfold partSumDense
  rw [Arr.read_ok (by rw [h.sizeMin]; exact hi), Res.bind_ok,
    Arr.read_ok (by rw [h.sizeMax]; exact hi), Res.bind_ok]
  refine wp_loopFrom (fun k s => s = ∑ j ∈ Finset.Ico (pmin.get i - 1) (k - 1), nn.get j) (by omega)
    (by simp) ?_ (fun s h => by simpa using h)
  rintro k h1 h2 s rfl
  rw [if_neg (by omega), Arr.read_ok (by omega), Res.bind_ok, Res.wp_pure,
    ← Finset.sum_Ico_succ_top (by omega), show k - 1 + 1 = k + 1 - 1 by omega]

/-- What the update computes. -/
structure Upd (M p n : Nat) (off : Nat → Nat) (d : Domain) : Prop where
  shape : d.Shape p
  cols : d.totalCols = M
  gmin : d.globalRowMin = 0
  lo : ∀ i, i < n → d.rowMin.get i = off i
  hi : ∀ i, i < n → d.rowMax.get i = off (i + 1)
  ext : ∀ i, i < n → d.extent.get i = off (i + 1) - off i
  elements : ∀ i, i < n → d.elements.get i = (off (i + 1) - off i) * M
  displ : ∀ i, i < n → d.displ.get i = off i * M

theorem wp_update {ar : Arith} {M p : Nat} {off : Nat → Nat} (hoff : off 0 = 0)
    (hmono : ∀ i, i < p → off i ≤ off (i + 1)) (hp : 0 < p) {partSum : Nat → Res Nat}
    (hps : ∀ i, i < p → (partSum i).wp E (fun s => s = off (i + 1) - off i)) {d : Domain}
    (hd : d.Shape p) (hM : d.totalCols = M) (hg : d.globalRowMin = 0) (har : ar.Fits (off p) M) :
    (updateWith ar partSum p d).wp E (fun d => Upd M p p off d ∧
      (∃ i, i < p ∧ d.minExtent = d.extent.get i) ∧ (∀ i, i < p → d.minExtent ≤ d.extent.get i) ∧
      (∃ i, i < p ∧ d.maxExtent = d.extent.get i) ∧ ∀ i, i < p → d.extent.get i ≤ d.maxExtent) := by
  have hle : ∀ i, i ≤ p → off i ≤ off p := by
    have : ∀ k, k ≤ p → off (p - k) ≤ off p := by
      intro k
      induction k with
      | zero => exact fun _ => le_rfl
      | succ k ih =>
        intro hk
        have h1 := ih (by omega)
        have h2 := hmono (p - (k + 1)) (by omega)
        rw [show p - (k + 1) + 1 = p - k by omega] at h2
        omega
    intro i hi
    have := this (p - i) (by omega)
    rwa [show p - (p - i) = i by omega] at this
  unfold updateWith
  rw [Res.wp_bind]
  refine wp_loop' (fun n d => Upd M p n off d) ⟨hd, hM, hg, fun i hi => by omega,
    fun i hi => by omega, fun i hi => by omega, fun i hi => by omega, fun i hi => by omega⟩ ?_ ?_
  · intro n hn d1 h
    unfold updateRank
    rw [Res.wp_bind]
    refine Res.wp_mono (hps n hn) ?_
    rintro s rfl
    rw [Res.wp_bind]
    refine Res.wp_mono (Q := fun x => x = off n) ?_ ?_
    · by_cases h0 : n = 0
      · subst h0; rw [if_pos rfl, Res.wp_pure, h.gmin, hoff]
      · rw [if_neg h0, Arr.wp_read]
        refine ⟨by rw [h.shape.rowMax]; omega, ?_⟩
        rw [h.hi (n - 1) (by omega)]; congr 1; omega
    rintro x rfl
    have hm := hmono n hn
    have hmp := hle (n + 1) (by omega)
    rw [Arr.write_ok _ (by rw [h.shape.rowMin]; exact hn), Res.bind_ok,
      Arr.write_ok _ (by rw [h.shape.rowMax]; exact hn), Res.bind_ok,
      Arr.write_ok _ (by rw [h.shape.extent]; exact hn), Res.bind_ok,
      Arr.read_ok (by show n < d1.extent.size; rw [h.shape.extent]; exact hn), Res.bind_ok, h.cols]
    simp only [upd_same]
    rw [har.mul _ (by omega), Res.bind_ok,
      Arr.write_ok _ (by rw [h.shape.elements]; exact hn), Res.bind_ok, Res.wp_bind]
    refine Res.wp_mono (Q := fun x => x = off n * M) ?_ ?_
    · by_cases h0 : n = 0
      · subst h0; rw [if_pos rfl, Res.wp_pure, hoff, Nat.zero_mul]
      · rw [if_neg h0, Arr.read_ok (by rw [h.shape.displ]; omega), Res.bind_ok, Res.wp_bind,
          Arr.wp_read]
        refine ⟨by show n - 1 < d1.elements.size; rw [h.shape.elements]; omega, ?_⟩
        simp only
        have := hmono (n - 1) (by omega)
        rw [show n - 1 + 1 = n by omega] at this
        rw [upd_ne _ _ (by omega), h.displ (n - 1) (by omega),
          h.elements (n - 1) (by omega), show n - 1 + 1 = n by omega, har.add _ _ (by omega), Res.wp_ok,
          ← Nat.add_mul]
        congr 1; omega
    rintro x rfl
    rw [Arr.write_ok _ (by rw [h.shape.displ]; exact hn), Res.bind_ok, Res.wp_pure]
    refine ⟨⟨h.shape.rowMin, h.shape.rowMax, h.shape.extent, h.shape.elements,
        h.shape.displ⟩, rfl, h.gmin, ?_, ?_, ?_, ?_, ?_⟩ <;>
    · intro i hi
      simp only
      by_cases hin : i = n
      · subst hin
        simp only [upd_same]
        try congr 1
        try omega
      · rw [upd_ne _ _ hin]
        first
          | exact h.lo i (by omega)
          | exact h.hi i (by omega)
          | exact h.ext i (by omega)
          | exact h.elements i (by omega)
          | exact h.displ i (by omega)
  · intro d1 h
    rw [Arr.read_ok (by rw [h.shape.extent]; exact hp), Res.bind_ok, Res.wp_bind]
    refine wp_loopFrom (fun n (st : Nat × Nat) =>
      (∃ i, i < n ∧ st.1 = d1.extent.get i) ∧ (∀ i, i < n → st.1 ≤ d1.extent.get i) ∧
      (∃ i, i < n ∧ st.2 = d1.extent.get i) ∧ ∀ i, i < n → d1.extent.get i ≤ st.2) hp ?_ ?_ ?_
    · have : ∀ i, i < 1 → i = 0 := by intro i hi; omega
      exact ⟨⟨0, by omega, rfl⟩, fun i hi => by rw [this i hi], ⟨0, by omega, rfl⟩,
        fun i hi => by rw [this i hi]⟩
    · rintro k h1 h2 ⟨mn, mx⟩ ⟨⟨i1, a1, b1⟩, k2, ⟨i3, a3, b3⟩, k4⟩
      simp only at b1 k2 b3 k4
      rw [Arr.read_ok (by rw [h.shape.extent]; exact h2), Res.bind_ok, Res.wp_pure]
      simp only
      refine ⟨?_, ?_, ?_, ?_⟩
      · split
        · exact ⟨k, by omega, rfl⟩
        · exact ⟨i1, by omega, b1⟩
      · intro i hi
        by_cases hik : i = k
        · subst hik; split <;> omega
        · have := k2 i (by omega)
          split <;> omega
      · split
        · exact ⟨k, by omega, rfl⟩
        · exact ⟨i3, by omega, b3⟩
      · intro i hi
        by_cases hik : i = k
        · subst hik; split <;> omega
        · have := k4 i (by omega)
          split <;> omega
    · rintro ⟨mn, mx⟩ hst
      rw [Res.wp_pure]
      exact ⟨⟨⟨h.shape.rowMin, h.shape.rowMax, h.shape.extent, h.shape.elements, h.shape.displ⟩,
        h.cols, h.gmin, h.lo, h.hi, h.ext, h.elements, h.displ⟩, hst⟩

end Domain

/-! ## The integer square root -/

theorem sqrtLoop_ok {x p : Nat} (hx : x ≤ p * p) (hmin : ∀ q, 1 ≤ q → q < p → q * q < x)
    (hp : p * p ≤ INT_MAX) :
    ∀ fuel i, 1 ≤ i → i ≤ p → p < i + fuel → sqrtLoop x fuel i (i * i) = .ok p := by
  intro fuel
  induction fuel with
  | zero => intro i _ h1 h2; omega
  | succ fuel ih =>
    intro i h1 hip hf
    unfold sqrtLoop
    by_cases he : i = p
    · subst he
      rw [if_neg (by exact_mod_cast Nat.not_lt.2 hx)]
    · have := hmin i h1 (by omega)
      rw [if_pos (by exact_mod_cast this), if_pos]
      · exact ih (i + 1) (by omega) (by omega) (by omega)
      · exact le_trans (Nat.mul_le_mul (by omega) (by omega)) hp

theorem sqrtLoop_ub {x : Nat} (hx : 46340 * 46340 < x) :
    ∀ fuel i, 1 ≤ i → i ≤ 46340 → sqrtLoop x fuel i (i * i) = .ub := by
  intro fuel
  induction fuel with
  | zero => intro i _ _; rfl
  | succ fuel ih =>
    intro i h1 hi
    unfold sqrtLoop
    have : i * i ≤ 46340 * 46340 := Nat.mul_le_mul hi hi
    rw [if_pos (by exact_mod_cast (by omega : i * i < x))]
    by_cases he : i = 46340
    · subst he
      rw [if_neg (by decide)]
    · have : (i + 1) * (i + 1) ≤ 46340 * 46340 := Nat.mul_le_mul (by omega) (by omega)
      rw [if_pos (by unfold INT_MAX; omega)]
      exact ih (i + 1) (by omega) (by omega)

end Bml
