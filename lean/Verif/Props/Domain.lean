import Verif.Common.DomainProof
import Verif.Wlp

/-!
# Property theorems: domain decomposition and process grid (C24, C25, C44)
-/

namespace Bml.Props

open Bml

/-- The `p` half-open intervals `[lo i, hi i)` follow one another and partition `[0, n)`. -/
structure Spec.Blocks (p n : Nat) (lo hi : Nat → Nat) : Prop where
  first : lo 0 = 0
  last : hi (p - 1) = n
  next : ∀ i, i + 1 < p → lo (i + 1) = hi i
  le : ∀ i, i < p → lo i ≤ hi i
  cover : ∀ r, r < n → ∃ i, (i < p ∧ lo i ≤ r ∧ r < hi i) ∧
    ∀ j, (j < p ∧ lo j ≤ r ∧ r < hi j) → j = i

/-- Consecutive intervals given by their end points. -/
theorem Spec.blocks_of {p n : Nat} (hp : 0 < p) {f lo hi : Nat → Nat} (h0 : f 0 = 0)
    (hn : f p = n) (hm : ∀ i, i < p → f i ≤ f (i + 1)) (hlo : ∀ i, i < p → lo i = f i)
    (hhi : ∀ i, i < p → hi i = f (i + 1)) : Spec.Blocks p n lo hi := by
  have mono : ∀ k i, i + k ≤ p → f i ≤ f (i + k) := by
    intro k
    induction k with
    | zero => intro i _; exact le_refl _
    | succ k ih =>
      intro i hi
      have h1 := ih i (by omega)
      have h2 := hm (i + k) (by omega)
      rw [show i + (k + 1) = i + k + 1 by omega]; omega
  have mono' : ∀ i j, i ≤ j → j ≤ p → f i ≤ f j := by
    intro i j hij hj
    have := mono (j - i) i (by omega)
    rwa [show i + (j - i) = j by omega] at this
  refine ⟨by rw [hlo 0 hp, h0], ?_, ?_, ?_, ?_⟩
  · rw [hhi _ (by omega), show p - 1 + 1 = p by omega, hn]
  · intro i hi; rw [hlo _ hi, hhi _ (by omega)]
  · intro i hi; rw [hlo _ hi, hhi _ hi]; exact hm i hi
  · intro r hr
    have ex : ∀ k, k ≤ p → r < f k → ∃ i, i < k ∧ f i ≤ r ∧ r < f (i + 1) := by
      intro k
      induction k with
      | zero => intro _ h; rw [h0] at h; omega
      | succ k ih =>
        intro hk h
        by_cases hc : r < f k
        · obtain ⟨i, a, b⟩ := ih (by omega) hc
          exact ⟨i, by omega, b⟩
        · exact ⟨k, by omega, by omega, h⟩
    obtain ⟨i, a, b, c⟩ := ex p (le_refl p) (by rw [hn]; exact hr)
    refine ⟨i, ⟨a, by rw [hlo i a]; exact b, by rw [hhi i a]; exact c⟩, ?_⟩
    rintro j ⟨a', b', c'⟩
    rw [hlo j a'] at b'
    rw [hhi j a'] at c'
    by_contra hne
    rcases Nat.lt_or_gt_of_ne hne with h | h
    · have := mono' (j + 1) i (by omega) (by omega); omega
    · have := mono' (i + 1) j (by omega) (by omega); omega

/-- **C24.**  The distributed mode, for every matrix size and every number `p ≥ 1` of ranks: the row
blocks partition `[0,N)` in rank order, their sizes differ by at most one, and the element blocks
`[displ, displ + elements)` partition `[0, N*M)` in rank order.  Partial: `N M` must fit in an `int`. -/
theorem C24_distributed_partial {N M : Nat} {p : Nat} (hp : 0 < p) (hNM : N * M ≤ INT_MAX) (junk : Nat → Nat) (cd : Nat) :
    ∃ d, Domain.default N M p .distributed junk cd = .ok d ∧
      Spec.Blocks p N d.rowMin.get d.rowMax.get ∧
      (∀ i, i < p → d.extent.get i = d.rowMax.get i - d.rowMin.get i) ∧
      (∀ i, i < p → N / p ≤ d.extent.get i ∧ d.extent.get i ≤ N / p + 1) ∧
      (∀ i, i < p → d.elements.get i = d.extent.get i * M) ∧
      Spec.Blocks p (N * M) d.displ.get (fun i => d.displ.get i + d.elements.get i) := by
  obtain ⟨d, e, h, h1, h2⟩ := Res.wp_exists
    (Domain.wp_distribute (E := False) (N := N) (M := M) hp (intArith_fits hNM) junk cd)
  have hs : ∀ i, i < p → Domain.start N p i ≤ Domain.start N p (i + 1) := by
    intro i _; rw [Domain.start_succ]; exact Nat.le_add_right _ _
  have hx : ∀ i, i < p → d.extent.get i = Domain.start N p (i + 1) - Domain.start N p i := by
    intro i hi; rw [h.ext i hi, Domain.start_succ, Nat.add_sub_cancel_left]
  refine ⟨d, ?_, Spec.blocks_of hp (f := Domain.start N p) (by simp [Domain.start])
    (Domain.start_last N p hp) hs h.lo h.hi, ?_, ?_, h1, ?_⟩
  · unfold Domain.default Domain.defaultWith
    simp only
    rw [if_neg (by omega)]; exact e
  · intro i hi; rw [h.hi i hi, h.lo i hi]; exact hx i hi
  · intro i hi
    rw [h.ext i hi]
    split <;> omega
  · refine Spec.blocks_of hp (f := fun i => Domain.start N p i * M) (by simp [Domain.start])
      (by rw [Domain.start_last N p hp]) (fun i hi => Nat.mul_le_mul_right M (hs i hi)) h2 ?_
    intro i hi
    rw [h2 i hi, h1 i hi, hx i hi, ← Nat.add_mul]
    have := hs i hi
    congr 1; omega

/-- **C24**, sequential mode: every rank holds all rows.  Partial: `N M` must fit in an `int`. -/
theorem C24_sequential_partial {N M : Nat} (hNM : N * M ≤ INT_MAX) (p : Nat) (junk : Nat → Nat) (cd : Nat) :
    ∃ d, Domain.default N M p .sequential junk cd = .ok d ∧ ∀ i, i < p →
      d.rowMin.get i = 0 ∧ d.rowMax.get i = N ∧ d.extent.get i = N ∧
      d.elements.get i = N * M ∧ d.displ.get i = 0 := by
  obtain ⟨d, e, _, h⟩ := Res.wp_exists (Domain.wp_sequential (E := False) (intArith_fits hNM) junk cd)
  exact ⟨d, e, h⟩

/-- **C24**, graph-distributed mode is reported as unavailable. -/
theorem C24_graph (N M p : Nat) (junk : Nat → Nat) (cd : Nat) :
    Domain.default N M p .graphDistributed junk cd = .error := rfl

example : (do let d ← Domain.default 10 4 3 .distributed (fun _ => 77) 4
              let a ← d.rowMin.read 2
              let b ← d.rowMax.read 2
              let c ← d.displ.read 2
              pure (a, b, c)) = .ok (7, 10, 28) := by decide

/-! ## C25 -/

/-- The rows before rank `i`: the nodes of all parts of the earlier ranks. -/
def Spec.rowsBefore (pmin nn : Arr Nat) (n p i : Nat) : Nat :=
  if i < p then ∑ j ∈ Finset.range (pmin.get i - 1), nn.get j
  else ∑ j ∈ Finset.range n, nn.get j

/-- What an update writes, for any way to add up the nodes of the parts of a rank. -/
theorem Spec.update_upd {ar : Arith} {pmin pmax nn : Arr Nat} {p n M : Nat} (hp : 0 < p)
    (ht : Domain.Tiling pmin pmax p n) {d : Domain} (hd : d.Shape p) (hM : d.totalCols = M)
    (hg : d.globalRowMin = 0)
    (hfit : ar.Fits (∑ j ∈ Finset.range n, nn.get j) M) {ps : Nat → Res Nat}
    (hps : ∀ i, i < p → (ps i).wp False (fun s =>
      s = ∑ j ∈ Finset.Ico (pmin.get i - 1) (pmax.get i), nn.get j)) :
    ∃ d', Domain.updateWith ar ps p d = .ok d' ∧
      Domain.Upd M p p (Spec.rowsBefore pmin nn n p) d' ∧
      Spec.rowsBefore pmin nn n p 0 = 0 ∧
      ∀ i, i < p → Spec.rowsBefore pmin nn n p i ≤ Spec.rowsBefore pmin nn n p (i + 1) := by
  have hstep : ∀ i, i < p → Spec.rowsBefore pmin nn n p (i + 1) =
      Spec.rowsBefore pmin nn n p i +
        ∑ j ∈ Finset.Ico (pmin.get i - 1) (pmax.get i), nn.get j := by
    intro i hi
    have hle := ht.le i hi
    have hb := ht.bounds hi
    have e1 : Spec.rowsBefore pmin nn n p (i + 1) = ∑ j ∈ Finset.range (pmax.get i), nn.get j := by
      unfold Spec.rowsBefore
      by_cases h1 : i + 1 < p
      · rw [if_pos h1, ht.next i h1, Nat.add_sub_cancel]
      · rw [if_neg h1]
        have : i = p - 1 := by omega
        rw [this, ht.last]
    rw [e1, Spec.rowsBefore, if_pos hi, Finset.sum_range_add_sum_Ico _ (by omega)]
  have h0 : Spec.rowsBefore pmin nn n p 0 = 0 := by
    unfold Spec.rowsBefore; rw [if_pos hp, ht.first]; rfl
  have hm : ∀ i, i < p → Spec.rowsBefore pmin nn n p i ≤ Spec.rowsBefore pmin nn n p (i + 1) := by
    intro i hi; rw [hstep i hi]; omega
  obtain ⟨d', e, h, -⟩ := Res.wp_exists (Domain.wp_update (E := False)
    (off := Spec.rowsBefore pmin nn n p) h0 hm hp (fun i hi => by
      refine Res.wp_mono (hps i hi) ?_
      rintro s rfl
      rw [hstep i hi]; omega) hd hM hg (by
        unfold Spec.rowsBefore; rw [if_neg (by omega)]; exact hfit))
  exact ⟨d', e, h, h0, hm⟩

theorem C25_aux {pmin pmax nn : Arr Nat} {p n M : Nat} (hp : 0 < p)
    (ht : Domain.Tiling pmin pmax p n) {d : Domain} (hd : d.Shape p) (hM : d.totalCols = M)
    (hg : d.globalRowMin = 0)
    (hfit : (∑ j ∈ Finset.range n, nn.get j) * M ≤ INT_MAX) {ps : Nat → Res Nat}
    (hps : ∀ i, i < p → (ps i).wp False (fun s =>
      s = ∑ j ∈ Finset.Ico (pmin.get i - 1) (pmax.get i), nn.get j)) :
    ∃ d', Domain.update ps p d = .ok d' ∧
      Spec.Blocks p (∑ j ∈ Finset.range n, nn.get j) d'.rowMin.get d'.rowMax.get ∧
      (∀ i, i < p → d'.rowMin.get i = ∑ j ∈ Finset.range (pmin.get i - 1), nn.get j) ∧
      (∀ i, i < p → d'.extent.get i =
        ∑ j ∈ Finset.Ico (pmin.get i - 1) (pmax.get i), nn.get j) ∧
      Spec.Blocks p ((∑ j ∈ Finset.range n, nn.get j) * M) d'.displ.get
        (fun i => d'.displ.get i + d'.elements.get i) ∧
      (∃ i, i < p ∧ d'.minExtent = d'.extent.get i) ∧
      (∀ i, i < p → d'.minExtent ≤ d'.extent.get i) ∧
      (∃ i, i < p ∧ d'.maxExtent = d'.extent.get i) ∧
      ∀ i, i < p → d'.extent.get i ≤ d'.maxExtent := by
  have hstep : ∀ i, i < p → Spec.rowsBefore pmin nn n p (i + 1) =
      Spec.rowsBefore pmin nn n p i +
        ∑ j ∈ Finset.Ico (pmin.get i - 1) (pmax.get i), nn.get j := by
    intro i hi
    have hle := ht.le i hi
    have hb := ht.bounds hi
    have e1 : Spec.rowsBefore pmin nn n p (i + 1) = ∑ j ∈ Finset.range (pmax.get i), nn.get j := by
      unfold Spec.rowsBefore
      by_cases h1 : i + 1 < p
      · rw [if_pos h1, ht.next i h1, Nat.add_sub_cancel]
      · rw [if_neg h1]
        have : i = p - 1 := by omega
        rw [this, ht.last]
    rw [e1, Spec.rowsBefore, if_pos hi, Finset.sum_range_add_sum_Ico _ (by omega)]
  have h0 : Spec.rowsBefore pmin nn n p 0 = 0 := by
    unfold Spec.rowsBefore; rw [if_pos hp, ht.first]; rfl
  have hlast : Spec.rowsBefore pmin nn n p p = ∑ j ∈ Finset.range n, nn.get j := by
    unfold Spec.rowsBefore; rw [if_neg (by omega)]
  have hm : ∀ i, i < p → Spec.rowsBefore pmin nn n p i ≤ Spec.rowsBefore pmin nn n p (i + 1) := by
    intro i hi; rw [hstep i hi]; omega
  obtain ⟨d', e, h, h1⟩ := Res.wp_exists (Domain.wp_update (E := False)
    (off := Spec.rowsBefore pmin nn n p) h0 hm hp (fun i hi => by
      refine Res.wp_mono (hps i hi) ?_
      rintro s rfl
      rw [hstep i hi]; omega) hd hM hg (intArith_fits (by rw [hlast]; exact hfit)))
  refine ⟨d', e, Spec.blocks_of hp h0 hlast hm h.lo h.hi, ?_, ?_, ?_, h1⟩
  · intro i hi; rw [h.lo i hi, Spec.rowsBefore, if_pos hi]
  · intro i hi; rw [h.ext i hi, hstep i hi]; omega
  · refine Spec.blocks_of hp (f := fun i => Spec.rowsBefore pmin nn n p i * M) (by simp [h0])
      (by simp only [hlast]) (fun i hi => Nat.mul_le_mul_right M (hm i hi)) h.displ ?_
    intro i hi
    rw [h.displ i hi, h.elements i hi, ← Nat.add_mul]
    have := hm i hi
    congr 1; omega

/-- **C25**, ELLPACK: if the ranges of part numbers (from one) tile the parts `1..n`, the updated
row blocks are in rank order and partition exactly the nodes of all parts; rank `i` gets the rows of
its parts; the element blocks are consecutive; the extreme extents are the true ones. -/
theorem C25_update_ellpack_partial {pmin pmax nn : Arr Nat} {p n M : Nat} (hp : 0 < p)
    (ht : Domain.Tiling pmin pmax p n) (hn : nn.size = n) {d : Domain} (hd : d.Shape p)
    (hM : d.totalCols = M) (hg : d.globalRowMin = 0)
    (hfit : (∑ j ∈ Finset.range n, nn.get j) * M ≤ INT_MAX) :
    ∃ d', Domain.update (Domain.partSumEllpack pmin pmax nn) p d = .ok d' ∧
      Spec.Blocks p (∑ j ∈ Finset.range n, nn.get j) d'.rowMin.get d'.rowMax.get ∧
      (∀ i, i < p → d'.rowMin.get i = ∑ j ∈ Finset.range (pmin.get i - 1), nn.get j) ∧
      (∀ i, i < p → d'.extent.get i =
        ∑ j ∈ Finset.Ico (pmin.get i - 1) (pmax.get i), nn.get j) ∧
      Spec.Blocks p ((∑ j ∈ Finset.range n, nn.get j) * M) d'.displ.get
        (fun i => d'.displ.get i + d'.elements.get i) ∧
      (∃ i, i < p ∧ d'.minExtent = d'.extent.get i) ∧
      (∀ i, i < p → d'.minExtent ≤ d'.extent.get i) ∧
      (∃ i, i < p ∧ d'.maxExtent = d'.extent.get i) ∧
      ∀ i, i < p → d'.extent.get i ≤ d'.maxExtent :=
  C25_aux hp ht hd hM hg hfit (fun _ hi => Domain.wp_partSumEllpack ht hn hi)

/-- **C25**, dense. -/
theorem C25_update_dense_partial {pmin pmax nn : Arr Nat} {p n M : Nat} (hp : 0 < p)
    (ht : Domain.Tiling pmin pmax p n) (hn : nn.size = n) {d : Domain} (hd : d.Shape p)
    (hM : d.totalCols = M) (hg : d.globalRowMin = 0)
    (hfit : (∑ j ∈ Finset.range n, nn.get j) * M ≤ INT_MAX) :
    ∃ d', Domain.update (Domain.partSumDense pmin pmax nn) p d = .ok d' ∧
      Spec.Blocks p (∑ j ∈ Finset.range n, nn.get j) d'.rowMin.get d'.rowMax.get ∧
      (∀ i, i < p → d'.rowMin.get i = ∑ j ∈ Finset.range (pmin.get i - 1), nn.get j) ∧
      (∀ i, i < p → d'.extent.get i =
        ∑ j ∈ Finset.Ico (pmin.get i - 1) (pmax.get i), nn.get j) ∧
      Spec.Blocks p ((∑ j ∈ Finset.range n, nn.get j) * M) d'.displ.get
        (fun i => d'.displ.get i + d'.elements.get i) ∧
      (∃ i, i < p ∧ d'.minExtent = d'.extent.get i) ∧
      (∀ i, i < p → d'.minExtent ≤ d'.extent.get i) ∧
      (∃ i, i < p ∧ d'.maxExtent = d'.extent.get i) ∧
      ∀ i, i < p → d'.extent.get i ≤ d'.maxExtent :=
  C25_aux hp ht hd hM hg hfit (fun _ hi => Domain.wp_partSumDense ht hn hi)

/-- Two ranks, three parts with 4, 1 and 5 nodes; the first rank gets two parts. -/
example : Domain.Tiling ⟨2, fun i => 1 + 2 * i⟩ ⟨2, fun i => 2 + i⟩ 2 3 :=
  ⟨rfl, rfl, rfl, by intro i hi; have : i = 0 := by omega
                     subst this; rfl,
    by intro i hi; simp only; omega, rfl⟩

example : (Domain.alloc 10 4 2 (fun _ => 77)).Shape 2 ∧
    (do let d ← Domain.update (Domain.partSumEllpack ⟨2, fun i => 1 + 2 * i⟩ ⟨2, fun i => 2 + i⟩
              ⟨3, fun j => [4, 1, 5].getD j 0⟩) 2 (Domain.alloc 10 4 2 (fun _ => 77))
        let a ← d.rowMin.read 1
        let b ← d.rowMax.read 1
        pure (a, b)) = .ok (5, 10) := ⟨⟨rfl, rfl, rfl, rfl, rfl⟩, by decide⟩

/-! ## C44 -/

/-- **C44 (partial).**  For `1 ≤ x ≤ 46340²`, `bml_sqrtint(x)` terminates and returns the smallest
positive `p` with `p*p ≥ x`.  Missing: larger `int`s, where `i * i` overflows
(`C44_sqrtint_overflow`). -/
theorem C44_sqrtint_partial {x : Nat} (hx : x ≤ 46340 * 46340) :
    ∃ p, sqrtint x = .ok p ∧ 1 ≤ p ∧ x ≤ p * p ∧ ∀ q, 1 ≤ q → q < p → q * q < x := by
  have hex : ∃ p, 1 ≤ p ∧ x ≤ p * p := ⟨46340, by omega, hx⟩
  classical
  refine ⟨Nat.find hex, ?_, (Nat.find_spec hex).1, (Nat.find_spec hex).2, ?_⟩
  · have hmin : ∀ q, 1 ≤ q → q < Nat.find hex → q * q < x := by
      intro q h1 hq
      have := Nat.find_min hex hq
      omega
    have hle : Nat.find hex ≤ 46340 := Nat.find_min' hex ⟨by omega, hx⟩
    exact sqrtLoop_ok (Nat.find_spec hex).2 hmin
      (le_trans (Nat.mul_le_mul hle hle) (by decide)) 46342 1 (le_refl 1) (Nat.find_spec hex).1
      (by omega)
  · intro q h1 hq
    have := Nat.find_min hex hq
    omega

/-- **C44 (partial)**: in that range the result squares to `x` exactly when `x` is a perfect square
(of a positive number), and then it is the root. -/
theorem C44_perfect_square_partial {x : Nat} (hx : x ≤ 46340 * 46340) :
    ∃ p, sqrtint x = .ok p ∧ (p * p = x ↔ ∃ q, 1 ≤ q ∧ q * q = x) ∧
      ∀ q, 1 ≤ q → q * q = x → p = q := by
  obtain ⟨p, e, h1, h2, h3⟩ := C44_sqrtint_partial hx
  have hroot : ∀ q, 1 ≤ q → q * q = x → p = q := by
    intro q hq he
    by_contra hne
    rcases Nat.lt_or_gt_of_ne hne with h | h
    · have := Nat.mul_lt_mul_of_lt_of_lt h h
      omega
    · have := h3 q hq h
      omega
  refine ⟨p, e, ⟨fun h => ⟨p, h1, h⟩, ?_⟩, hroot⟩
  rintro ⟨q, hq, he⟩
  rw [hroot q hq he, he]

/-- **C44 (partial)**: the grid setup accepts exactly the squares. -/
theorem C44_setcomm_partial {x : Nat} (hx : x ≤ 46340 * 46340) :
    (∀ q, 1 ≤ q → q * q = x → setcomm x = .ok q) ∧
      ((∀ q, 1 ≤ q → q * q ≠ x) → setcomm x = .error) := by
  obtain ⟨p, e, h1, h2⟩ := C44_perfect_square_partial hx
  unfold setcomm
  rw [e, Res.bind_ok]
  constructor
  · intro q hq he
    have := h2 q hq he
    subst this
    rw [if_neg (by simp [he])]; rfl
  · intro hno
    rw [if_pos]
    intro he
    obtain ⟨q, hq, hqe⟩ := h1.1 he
    exact hno q hq hqe

/-- **C44 (partial)**: the matrix setup succeeds exactly if moreover the grid side divides `N`. -/
theorem C44_setup_partial {q N : Nat} (hq : 1 ≤ q) (hx : q ≤ 46340) :
    setupGrid (q * q) N = if q ∣ N then .ok (q, N / q) else .error := by
  unfold setupGrid
  rw [(C44_setcomm_partial (Nat.mul_le_mul hx hx)).1 q hq rfl, Res.bind_ok]
  by_cases hd : q ∣ N
  · rw [if_pos hd, if_pos (Nat.div_mul_cancel hd)]; rfl
  · rw [if_neg hd, if_neg]
    intro h
    exact hd (Dvd.intro_left _ h)

/-- **C44 fails** for every larger argument: `i * i` overflows before the loop ends. -/
theorem C44_sqrtint_overflow {x : Nat} (hx : 46340 * 46340 < x) : sqrtint x = .ub :=
  sqrtLoop_ub hx 46342 1 (le_refl 1) (by decide)

example : ∃ p, sqrtint (16 : Nat) = .ok p ∧ p = 4 := ⟨4, rfl, rfl⟩
example : setcomm 12 = .error := rfl
example : setupGrid 9 12 = .ok (3, 4) := rfl
example : sqrtint (2147395601 : Nat) = .ub := C44_sqrtint_overflow (by decide)

end Bml.Props
