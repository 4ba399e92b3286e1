import Verif.Ellblock.Reduce
import Verif.Ellblock.Ops2
import Verif.Ellpack.Normalize

/-!
# Sums over block-ELLPACK matrices
-/

set_option linter.unusedSectionVars false

namespace Bml

namespace EllB

variable {R K : Type} {E : Prop}

/-! ## Loops that sum -/

section
variable [AddCommMonoid K]

theorem loop_sum {n : Nat} {s : K} {f : Nat → K → Res K} {g : Nat → K}
    (h : ∀ k s, k < n → f k s = .ok (s + g k)) :
    loop n s f = .ok (s + ∑ k ∈ Finset.range n, g k) := by
  induction n with
  | zero => simp [loop]
  | succ n ih =>
    rw [loop_succ, ih (fun k s hk => h k s (by omega)), Res.bind_ok, h n _ (by omega),
      Finset.sum_range_succ, add_assoc]

theorem loop2_sum {n m : Nat} {s : K} {f : Nat → Nat → K → Res K} {g : Nat → Nat → K}
    (h : ∀ ii jj s, ii < n → jj < m → f ii jj s = .ok (s + g ii jj)) :
    loop2 n m s f = .ok (s + ∑ ii ∈ Finset.range n, ∑ jj ∈ Finset.range m, g ii jj) := by
  unfold loop2
  exact loop_sum fun ii s hi => loop_sum fun jj s hj => h ii jj s hi hj

theorem forList_sum {ι : Type} {l : List ι} {s : K} {f : ι → K → Res K} {g : ι → K}
    (h : ∀ x s, x ∈ l → f x s = .ok (s + g x)) :
    forList l s f = .ok (s + (l.map g).sum) := by
  induction l generalizing s with
  | nil => simp [forList]
  | cons x l ih =>
    rw [forList_cons, h x s (by simp), Res.bind_ok, ih (fun y s hy => h y s (by simp [hy])),
      List.map_cons, List.sum_cons, add_assoc]

/-- A sum over all indices, block by block. -/
theorem sum_off (bs : Nat → Nat) (h : Nat → K) (n : Nat) :
    ∑ i ∈ Finset.range (off bs n), h i =
      ∑ ib ∈ Finset.range n, ∑ ii ∈ Finset.range (bs ib), h (off bs ib + ii) := by
  induction n with
  | zero => rfl
  | succ n ih =>
    rw [Finset.sum_range_succ, ← ih, off_succ, Finset.sum_range_add]

end

section
variable [AddCommMonoid R] [AddCommMonoid K] {A : EllB R} {L : Nat → BRow R} {N : Nat}
  {a : Spec.Mat R}

theorem GoodRow.sgood {NB : Nat} {bs : Nat → Nat} {ib : Nat} {l : BRow R}
    (h : GoodRow NB bs ib l) : SRow.Good NB (l.map fun p => (p.1, p.2.get)) := by
  refine ⟨?_, ?_⟩
  · rw [List.map_map]; exact h.nodup
  · intro p hp
    obtain ⟨q, hq, rfl⟩ := List.mem_map.1 hp
    exact h.lt q hq

/-- A sum over the blocks of one block row. -/
theorem Rows.sum_row (h : A.Rows N L a) {ib ii : Nat} (hib : ib < A.NB)
    (hii : ii < A.bsize.get ib) (g : Nat → R → K) (hg : ∀ j, g j 0 = 0) :
    ((L ib).map fun p => ∑ jj ∈ Finset.range (A.bsize.get p.1),
      g (off A.bsize.get p.1 + jj) (p.2.get (ii * A.bsize.get p.1 + jj))).sum =
      ∑ j ∈ Finset.range N, g j (a (off A.bsize.get ib + ii) j) := by
  have h1 := SRow.sum_den_map (h.good ib hib).sgood
    (fun jb v => ∑ jj ∈ Finset.range (A.bsize.get jb),
      g (off A.bsize.get jb + jj) (v (ii * A.bsize.get jb + jj)))
    (fun jb => Finset.sum_eq_zero fun jj _ => hg _)
  rw [List.map_map] at h1
  refine (Eq.trans ?_ h1.symm).trans ?_
  · rfl
  · rw [← h.N_eq, sum_off]
    refine Finset.sum_congr rfl fun jb hjb => Finset.sum_congr rfl fun jj hjj => ?_
    rw [← h.den ib jb ii jj hib (by simpa using hjb) hii (by simpa using hjj)]
    rfl

/-- A sum over all blocks of one block row. -/
theorem Rows.sum_rows (h : A.Rows N L a) {ib : Nat} (hib : ib < A.NB)
    (g : Nat → Nat → R → K) (hg : ∀ i j, g i j 0 = 0) :
    ((L ib).map fun p => ∑ ii ∈ Finset.range (A.bsize.get ib),
      ∑ jj ∈ Finset.range (A.bsize.get p.1), g (off A.bsize.get ib + ii)
        (off A.bsize.get p.1 + jj) (p.2.get (ii * A.bsize.get p.1 + jj))).sum =
      ∑ ii ∈ Finset.range (A.bsize.get ib), ∑ j ∈ Finset.range N,
        g (off A.bsize.get ib + ii) j (a (off A.bsize.get ib + ii) j) := by
  rw [Finset.sum_congr rfl fun ii hii => (h.sum_row hib (ii := ii) (by simpa using hii)
    (g (off A.bsize.get ib + ii)) (hg _)).symm]
  generalize L ib = l
  induction l with
  | nil => simp
  | cons p l ih => simp only [List.map_cons, List.sum_cons]; rw [ih, Finset.sum_add_distrib]

/-- Reading an element of a stored block. -/
theorem Rows.read_eq (h : A.Rows N L a) {ib : Nat} (hib : ib < A.NB) {p : Nat × Arr R}
    (hp : p ∈ L ib) {ii jj : Nat} (hii : ii < A.bsize.get ib) (hjj : jj < A.bsize.get p.1) :
    p.2.read (ii * A.bsize.get p.1 + jj) = .ok (p.2.get (ii * A.bsize.get p.1 + jj)) :=
  Arr.read_ok (Nat.lt_of_lt_of_le (addr_lt hii hjj) ((h.good ib hib).size p hp))

/-- Summing over all stored elements. -/
theorem Rows.eachElem_eq (h : A.Rows N L a) {f : Nat → Nat → Nat → Nat → R → K → Res K}
    (g : Nat → Nat → R → K) (hg : ∀ i j, g i j 0 = 0) (s : K)
    (hf : ∀ ib jb ii jj v s, ib < A.NB → jb < A.NB → ii < A.bsize.get ib → jj < A.bsize.get jb →
      f ib jb ii jj v s =
        .ok (s + g (off A.bsize.get ib + ii) (off A.bsize.get jb + jj) v)) :
    A.eachElem s f =
      .ok (s + ∑ i ∈ Finset.range N, ∑ j ∈ Finset.range N, g i j (a i j)) := by
  unfold eachElem
  rw [loop_sum (g := fun ib => ∑ ii ∈ Finset.range (A.bsize.get ib), ∑ j ∈ Finset.range N,
    g (off A.bsize.get ib + ii) j (a (off A.bsize.get ib + ii) j))]
  · rw [← sum_off A.bsize.get (fun i => ∑ j ∈ Finset.range N, g i j (a i j)), h.N_eq]
  · intro ib s hib
    rw [← h.sum_rows hib g hg]
    rw [h.is.eachIdx_eq hib s _ (fun p s => loop2 (A.bsize.get ib) (A.bsize.get p.1) s
      fun ii jj s => do
        let v ← p.2.read (ROWMAJOR ii jj (A.bsize.get ib) (A.bsize.get p.1))
        f ib p.1 ii jj v s)]
    · refine forList_sum fun p s hp => loop2_sum fun ii jj s hii hjj => ?_
      simp only [ROWMAJOR]
      rw [h.read_eq hib hp hii hjj, Res.bind_ok,
        hf _ _ _ _ _ _ hib ((h.good ib hib).lt p hp) hii hjj]
    · intro jp jb b s hs
      have hjb := (h.good ib hib).lt _ (List.mem_of_getElem? hs)
      rw [h.is.block_eq hib hs, Res.bind_ok, h.is.bsize_eq hib, Res.bind_ok, h.is.bsize_eq hjb,
        Res.bind_ok]

end

/-! ## Sums of squares, numbers of elements -/

theorem Rows.sumSquares_eq [CommRing R] {A : EllB R} {L : Nat → BRow R} {N : Nat}
    {a : Spec.Mat R} (h : A.Rows N L a) :
    A.sumSquares = .ok (∑ i ∈ Finset.range N, ∑ j ∈ Finset.range N, a i j * a i j) := by
  unfold sumSquares
  rw [h.eachElem_eq (fun _ _ v => v * v) (fun _ _ => by simp)]
  · rw [zero_add]
  · intros; rfl

theorem Rows.sparsityCount_eq [AddCommMonoid R] {A : EllB R} {L : Nat → BRow R} {N : Nat}
    {a : Spec.Mat R} (h : A.Rows N L a) (big : R → Bool) (h0 : big 0 = false) :
    A.sparsityCount big = .ok (∑ i ∈ Finset.range N, ∑ j ∈ Finset.range N,
      if big (a i j) then 1 else 0) := by
  unfold sparsityCount
  rw [h.eachElem_eq (fun _ _ v => if big v then 1 else 0) (fun _ _ => by simp [h0])]
  · rw [zero_add]
  · intro ib jb ii jj v s _ _ _ _
    by_cases hv : big v = true <;> simp [hv, Res.pure_eq]

/-! ## Traces -/

section
variable [CommRing R] {A B : EllB R} {L LB : Nat → BRow R} {N : Nat} {a b : Spec.Mat R}

theorem Rows.trace_eq (h : A.Rows N L a) : A.trace = .ok (∑ i ∈ Finset.range N, a i i) := by
  unfold trace
  rw [loop_sum (g := fun ib => ∑ ii ∈ Finset.range (A.bsize.get ib),
    a (off A.bsize.get ib + ii) (off A.bsize.get ib + ii))]
  · rw [zero_add, ← sum_off A.bsize.get (fun i => a i i), h.N_eq]
  · intro ib s hib
    have hd : ∀ ii ∈ Finset.range (A.bsize.get ib), a (off A.bsize.get ib + ii)
        (off A.bsize.get ib + ii) = val (L ib) ib (ii * A.bsize.get ib + ii) := fun ii hii =>
      (h.den ib ib ii ii hib hib (by simpa using hii) (by simpa using hii)).symm
    rw [Finset.sum_congr rfl hd, h.is.nnzb_eq hib, Res.bind_ok]
    rcases h.is.findBlk_cases hib ib with ⟨e, hn⟩ | ⟨k, b, e, hs⟩
    · rw [e, Res.bind_ok]
      simp only [val_of_not_mem hn, Finset.sum_const_zero, add_zero, Res.pure_eq]
    · have hm : (ib, b) ∈ L ib := List.mem_of_getElem? hs
      rw [e, Res.bind_ok]
      simp only
      rw [h.is.block_eq hib hs, Res.bind_ok, h.is.bsize_eq hib, Res.bind_ok]
      refine loop_sum fun ii s hii => ?_
      simp only [ROWMAJOR]
      rw [val_of_mem (h.good ib hib).nodup hm]
      have := h.read_eq hib hm hii hii
      simp only at this
      rw [this, Res.bind_ok, Res.pure_eq]

/-- Adding over the blocks with a given block column. -/
theorem forList_pick {l : BRow R} (hn : (l.map Prod.fst).Nodup) (c : Nat) (s : K)
    [AddCommMonoid K] {f : Nat × Arr R → K → Res K} (G : (Nat → R) → K) (h0 : G (fun _ => 0) = 0)
    (hit : ∀ p s, p ∈ l → p.1 = c → f p s = .ok (s + G p.2.get))
    (miss : ∀ p s, p ∈ l → p.1 ≠ c → f p s = .ok s) :
    forList l s f = .ok (s + G (val l c)) := by
  induction l generalizing s with
  | nil =>
    have : val ([] : BRow R) c = fun _ => 0 := rfl
    rw [this, h0, add_zero]; rfl
  | cons p l ih =>
    rw [List.map_cons, List.nodup_cons] at hn
    have ih' := fun s => ih (s := s) hn.2 (fun q s hq => hit q s (by simp [hq]))
      (fun q s hq => miss q s (by simp [hq]))
    rw [forList_cons]
    by_cases hp : p.1 = c
    · have hv : val l c = fun _ => 0 := by
        funext k; exact val_of_not_mem (hp ▸ hn.1) k
      have : val (p :: l) c = p.2.get := by
        funext k; rw [val_cons, if_pos hp, val_of_not_mem (hp ▸ hn.1), add_zero]
      rw [hit p s (by simp) hp, Res.bind_ok, ih', hv, h0, add_zero, this]
    · have : val (p :: l) c = val l c := by
        funext k; rw [val_cons, if_neg hp, zero_add]
      rw [miss p s (by simp) hp, Res.bind_ok, ih', this]

theorem Rows.traceMult_eq (hA : A.Rows N L a) (hB : B.Rows N LB b) (hMB : A.MB = B.MB)
    (hNB : A.NB = B.NB) (hbs : ∀ k, k < A.NB → A.bsize.get k = B.bsize.get k) :
    traceMult A B =
      .ok (∑ i ∈ Finset.range N, ∑ j ∈ Finset.range N, a i j * b j i) := by
  have hoff : ∀ k, k ≤ A.NB → off B.bsize.get k = off A.bsize.get k := by
    intro k hk
    unfold off
    exact Finset.sum_congr rfl fun j hj => (hbs j (by simp at hj; omega)).symm
  unfold traceMult
  rw [if_neg (by simp [hNB, hMB])]
  rw [loop_sum (g := fun ib => ∑ ii ∈ Finset.range (A.bsize.get ib), ∑ j ∈ Finset.range N,
    a (off A.bsize.get ib + ii) j * b j (off A.bsize.get ib + ii))]
  · rw [zero_add, ← sum_off A.bsize.get (fun i => ∑ j ∈ Finset.range N, a i j * b j i), hA.N_eq]
  · intro ib s hib
    rw [← hA.sum_rows hib (fun i j v => v * b j i) (fun i j => by simp)]
    rw [hA.is.eachIdx_eq hib s _ (fun p s => B.eachIdx p.1 s fun indB kb s =>
          if kb = ib then do
            let b ← B.block indB
            let bi ← A.bsize.read ib
            let bj ← A.bsize.read p.1
            loop2 bi bj s fun ii jj s => do
              let x ← p.2.read (ROWMAJOR ii jj bi bj)
              let y ← b.read (ROWMAJOR jj ii bj bi)
              pure (s + x * y)
          else pure s)]
    · refine forList_sum fun p s hp => ?_
      have hpb := (hA.good ib hib).lt p hp
      have hpb' : p.1 < B.NB := by omega
      rw [hB.is.eachIdx_eq hpb' s _ (fun q s => if q.1 = ib then
          loop2 (A.bsize.get ib) (A.bsize.get p.1) s fun ii jj s => do
              let x ← p.2.read (ROWMAJOR ii jj (A.bsize.get ib) (A.bsize.get p.1))
              let y ← q.2.read (ROWMAJOR jj ii (A.bsize.get p.1) (A.bsize.get ib))
              pure (s + x * y)
          else pure s)]
      · rw [forList_pick (hB.good p.1 hpb').nodup ib s (fun v =>
          ∑ ii ∈ Finset.range (A.bsize.get ib), ∑ jj ∈ Finset.range (A.bsize.get p.1),
            p.2.get (ii * A.bsize.get p.1 + jj) * v (jj * A.bsize.get ib + ii)) (by simp)]
        · congr 2
          refine Finset.sum_congr rfl fun ii hii => Finset.sum_congr rfl fun jj hjj => ?_
          simp only [Finset.mem_range] at hii hjj
          have hd := hB.den p.1 ib jj ii hpb' (by omega) (by rw [← hbs _ hpb]; exact hjj)
            (by rw [← hbs _ hib]; exact hii)
          rw [hoff _ (by omega), hoff _ (by omega), ← hbs _ hib] at hd
          rw [← hd]
        · intro q s hq hqc
          rw [if_pos hqc]
          refine loop2_sum fun ii jj s hii hjj => ?_
          simp only [ROWMAJOR]
          rw [hA.read_eq hib hp hii hjj, Res.bind_ok]
          have := hB.read_eq hpb' hq (ii := jj) (jj := ii) (by rw [← hbs _ hpb]; exact hjj)
            (by rw [hqc, ← hbs _ hib]; exact hii)
          rw [hqc, ← hbs _ hib] at this
          rw [this, Res.bind_ok, Res.pure_eq]
        · intro q s hq hqc
          rw [if_neg hqc, Res.pure_eq]
      · intro jp kb q s hs
        by_cases hk : kb = ib
        · simp only [if_pos hk]
          rw [hB.is.block_eq hpb' hs, Res.bind_ok, hA.is.bsize_eq hib, Res.bind_ok,
            hA.is.bsize_eq hpb, Res.bind_ok]
        · simp only [if_neg hk]
    · intro jp jb q s hs
      rw [hA.is.block_eq hib hs, Res.bind_ok]

end

end EllB

end Bml
