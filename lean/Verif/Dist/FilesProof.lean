import Verif.Dist.Files
import Verif.Dense.Ops
import Verif.Csr.Ops4
import Verif.Ellpack.Stored
import Verif.Props.Dense2
import Verif.Props.Csr2
import Verif.Props.EllSub
import Verif.Props.EllConstruct
import Verif.Props.Dist
import Verif.Props.MatrixMarket

/-!
# Files of 2-D distributed matrices: the formats
-/

namespace Bml.Dist

open Bml.Props

variable {R : Type} [CommRing R] {p n M : Nat} {a : Spec.Mat R}

/-! ## Dense -/

theorem dense_noinit (N : Nat) (junk : Nat → R) :
    (Dense.noinit N junk).Represents N (fun i j => junk (ROWMAJOR i j N N)) :=
  Dense.represents_iff.2 ⟨rfl, rfl, fun _ _ _ _ => rfl⟩

theorem dense_step (hn : 0 < n) {b : Spec.Mat R} {k : Nat} (hk : k < p * p) {B C : Dense R} (hC : C.Represents n (tile n (k / p) (k % p) a))
    (hB : B.Represents (p * n) (tilesTo p n k a b)) :
    ∃ B', B.assignSubmatrix C (k / p * n) (k % p * n) = .ok B' ∧
      B'.Represents (p * n) (tilesTo p n (k + 1) a b) := by
  obtain ⟨h1, h2, -⟩ := coords hk
  obtain ⟨B', e, h⟩ := C28_dense_assign hB hC (window_le h1) (window_le h2)
  exact ⟨B', e, Dense.represents_iff.2 ((Dense.represents_iff.1 h).congr fun i j _ hj => tilesTo_step hn a b hj)⟩

theorem dense_write {D : Nat → Dense R} (hp : 0 < p) (hn : 0 < n)
    (hD : Holds (fun A a => A.Represents n a) p n D a) (f : Mm.Fmt R) (nz : R → Bool) (junk : Nat → Nat → R) :
    ∃ B, (writeNet (denseFiles f nz junk) p (p * n) M D).after (writeStart (denseFiles f nz junk) (p * n) M D)
        ((writeNet (denseFiles f nz junk) p (p * n) M D).P - 1) = .ok B ∧
      B.Represents (p * n) a := by
  have hN : p * n / p = n := Nat.mul_div_cancel_left n hp
  have hpp : 0 < p * p := Nat.mul_pos hp hp
  have hT : ∀ k, k < p * p → (D k).Represents n (tile n (k / p) (k % p) a) := fun k hk => by
    obtain ⟨h1, h2, h3⟩ := coords hk
    have := hD _ _ h1 h2
    rwa [h3] at this
  have h0 : ∃ B, writeStart (denseFiles f nz junk) (p * n) M D = .ok B ∧ B.Represents (p * n)
      (tilesTo p n 1 a fun i j => junk 0 (ROWMAJOR i j (p * n) (p * n))) := by
    have := dense_step (k := 0) hn hpp (hT 0 hpp) (Dense.represents_iff.2
      ((Dense.represents_iff.1 (dense_noinit (p * n) (junk 0))).congr fun i j _ _ => rfl) :
        (Dense.noinit (p * n) (junk 0)).Represents (p * n)
          (tilesTo p n 0 a fun i j => junk 0 (ROWMAJOR i j (p * n) (p * n))))
    rw [Nat.zero_div, Nat.zero_mod, Nat.zero_mul] at this
    exact this
  obtain ⟨B, e, h⟩ := writeNet_after (F := denseFiles f nz junk) (N := p * n) (M := M) (D := D) hp
      (fun k (B : Dense R) => B.Represents (p * n) (tilesTo p n k a fun i j =>
      junk 0 (ROWMAJOR i j (p * n) (p * n)))) h0 fun k (B : Dense R) hk0 hk hB => by
    obtain ⟨C, e, hC⟩ := C57_dense_send_recv (hT k hk) (dense_noinit n (junk k))
    obtain ⟨B', e', h'⟩ := dense_step hn hk hC hB
    refine ⟨B', ?_, h'⟩
    show (do
      let C ← (pure (Dense.noinit (p * n / p) (junk k)) : Res (Dense R))
      let C ← Dense.deliver C (D k)
      B.assignSubmatrix C (k / p * (p * n / p)) (k % p * (p * n / p))) = _
    rw [hN, Res.pure_eq, Res.bind_ok]
    unfold Dense.deliver
    rw [e, Res.bind_ok, e']
  exact ⟨B, e, Dense.represents_iff.2 ((Dense.represents_iff.1 h).congr fun i j hi hj =>
    tilesTo_all a _ hi hj)⟩

/-! ## ELLPACK -/

/-- Rank 0 has the first `k` tiles.  `S k i j` says that position `(i,j)` of tile `k` is stored. -/
structure EllAcc (p n M m : Nat) (S : Nat → Nat → Nat → Prop) (a : Spec.Mat R) (k : Nat) (B : Ell R) :
    Prop where
  rep : B.Represents (p * n) (tilesTo p n k a fun _ _ => 0)
  wid : B.M = M
  stored : ∀ i j, i < p * n → j < p * n →
    (B.Stored i j ↔ tileAt p n i j < k ∧ S (tileAt p n i j) (i % n) (j % n))
  nnz : ∀ i, i < p * n → B.nnz.get i ≤ min p (k - i / n * p) * m

theorem ell_stored_lt {N : Nat} {A : Ell R} (hA : A.Represents N a) {i j : Nat} (hi : i < N)
    (h : A.Stored i j) : j < N := by
  obtain ⟨q, hq, rfl⟩ := List.mem_map.1 (Ell.stored_iff.1 h)
  exact ((Ell.represents_iff.1 hA).good i hi).2 q hq

theorem ell_step (hn : 0 < n) {m k : Nat} (hk : k < p * p) (hm : p * m ≤ M) {S : Nat → Nat → Nat → Prop}
    {B C : Ell R} (hC : C.Represents n (tile n (k / p) (k % p) a)) (hCm : ∀ i, i < n → C.nnz.get i ≤ m)
    (hS : ∀ i j, i < n → j < n → (C.Stored i j ↔ S k i j)) (hB : EllAcc p n M m S a k B) :
    ∃ B', B.assignSubmatrix C (k / p * n) (k % p * n) = .ok B' ∧ EllAcc p n M m S a (k + 1) B' := by
  obtain ⟨h1, h2, -⟩ := coords hk
  have hp : 0 < p := by omega
  have w1 : k / p * n + n ≤ p * n := window_le h1
  have w2 : k % p * n + n ≤ p * n := window_le h2
  have hkm := Nat.div_add_mod k p
  rw [Nat.mul_comm] at hkm
  have hdiv : ∀ i, i < n → (k / p * n + i) / n = k / p := fun i hi => by
    rw [Nat.add_comm, Nat.add_mul_div_right _ _ hn, Nat.div_eq_of_lt hi, Nat.zero_add]
  have hempty : ∀ i j, i < n → j < n → ¬ B.Stored (k / p * n + i) (k % p * n + j) := by
    intro i j hi hj hst
    have := ((hB.stored _ _ (by omega) (by omega)).1 hst).1
    have h3 : tileAt p n (k / p * n + i) (k % p * n + j) = k :=
      (window_iff hn (by omega)).1 ⟨⟨by omega, by omega⟩, by omega, by omega⟩
    omega
  have hroom : ∀ i, i < n → B.nnz.get (k / p * n + i) + C.nnz.get i ≤ B.M := by
    intro i hi
    have a1 := hB.nnz (k / p * n + i) (by omega)
    rw [hdiv i hi, show k - k / p * p = k % p by omega, min_eq_right (by omega)] at a1
    have a2 := hCm i hi
    have a3 : (k % p + 1) * m ≤ p * m := Nat.mul_le_mul_right _ h2
    rw [Nat.succ_mul] at a3
    rw [hB.wid]; omega
  obtain ⟨B', e, hM, hR⟩ := C28_assign_partial hB.rep hC w1 w2 hempty hroom
  have hrows : Ell.Rows B' (p * n) B.M (fun r => B.row r ++
      if k / p * n ≤ r ∧ r < k / p * n + n then SRow.shift (k % p * n) (C.row (r - k / p * n)) else []) := by
    have := Ell.wp_assignSubmatrix (E := False) (icol := k % p * n) (Ell.represents_iff.1 hB.rep)
      (Ell.represents_iff.1 hC) w1 hroom
    rw [e] at this
    exact this
  refine ⟨B', e, hR.congr (fun i j _ hj =>
    tilesTo_step hn a _ hj), hM.trans hB.wid, fun i j hi hj => ?_, fun i hi => ?_⟩
  · rw [Ell.stored_iff, hrows.row i hi, List.map_append, List.mem_append, ← Ell.stored_iff, hB.stored i j hi hj]
    by_cases hw : tileAt p n i j = k
    · obtain ⟨⟨x1, x2⟩, x3, x4⟩ := (window_iff hn hj).2 hw
      have ei : i % n = i - k / p * n := by
        rw [show i = (i - k / p * n) + k / p * n by omega, Nat.add_mul_mod_self_right]
        rw [Nat.mod_eq_of_lt (by omega)]; omega
      have ej : j % n = j - k % p * n := by
        rw [show j = (j - k % p * n) + k % p * n by omega, Nat.add_mul_mod_self_right]
        rw [Nat.mod_eq_of_lt (by omega)]; omega
      rw [if_pos ⟨x1, x2⟩, hw, ei, ej, ← hS _ _ (by omega) (by omega), Ell.stored_iff]
      simp only [SRow.shift, List.map_map, List.mem_map, Function.comp]
      constructor
      · rintro (⟨h, -⟩ | ⟨q, hq, rfl⟩)
        · omega
        · exact ⟨by omega, q, hq, by omega⟩
      · rintro ⟨-, q, hq, he⟩
        exact Or.inr ⟨q, hq, by omega⟩
    · have hlt : tileAt p n i j < k + 1 ↔ tileAt p n i j < k := by omega
      rw [hlt]
      refine ⟨fun h => h.resolve_right fun h => hw ?_, Or.inl⟩
      split at h
      · next hi' =>
        simp only [SRow.shift, List.map_map, List.mem_map, Function.comp] at h
        obtain ⟨q, hq, rfl⟩ := h
        have := ((Ell.represents_iff.1 hC).good (i - k / p * n) (by omega)).2 q hq
        exact (window_iff hn hj).1 ⟨hi', by omega, by omega⟩
      · simp at h
  · rw [hrows.nnz hi, List.length_append, Ell.row_length]
    have hb := hB.nnz i hi
    split
    · next hi' =>
      have ed : i / n = k / p := Nat.div_eq_of_lt_le hi'.1 (by rw [Nat.succ_mul]; exact hi'.2)
      rw [ed, show k - k / p * p = k % p by omega, min_eq_right (by omega)] at hb
      rw [ed, show k + 1 - k / p * p = k % p + 1 by omega, min_eq_right (by omega), Nat.succ_mul]
      have := hCm (i - k / p * n) (by omega)
      rw [SRow.shift, List.length_map, Ell.row_length]
      omega
    · rw [List.length_nil, Nat.add_zero]
      exact le_trans hb (Nat.mul_le_mul_right _ (by omega))

theorem ell_write {D : Nat → Ell R} (hp : 0 < p) (hn : 0 < n)
    (hD : Holds (fun A a => A.Represents n a ∧ A.M = M / p) p n D a) (f : Mm.Fmt R) (jv : Nat → Nat → R)
    (ji : Nat → Nat → Nat) (sc : Nat → Sched) :
    ∃ B, (writeNet (ellFiles f jv ji sc) p (p * n) M D).after (writeStart (ellFiles f jv ji sc) (p * n) M D)
        ((writeNet (ellFiles f jv ji sc) p (p * n) M D).P - 1) = .ok B ∧
      EllAcc p n M (M / p) (fun k i j => (D k).Stored i j) a (p * p) B := by
  have hN : p * n / p = n := Nat.mul_div_cancel_left n hp
  have hpp : 0 < p * p := Nat.mul_pos hp hp
  have hT : ∀ k, k < p * p → (D k).Represents n (tile n (k / p) (k % p) a) ∧ (D k).M = M / p := fun k hk => by
    obtain ⟨h1, h2, h3⟩ := coords hk
    have := hD _ _ h1 h2
    rwa [h3] at this
  have hle : ∀ k, k < p * p → ∀ i, i < n → (D k).nnz.get i ≤ M / p := fun k hk i hi => by
    have := (Ell.represents_iff.1 (hT k hk).1).le i hi
    rwa [(hT k hk).2] at this
  have hm : p * (M / p) ≤ M := Nat.mul_div_le M p
  have h0 : ∃ B, writeStart (ellFiles f jv ji sc) (p * n) M D = .ok B ∧
      EllAcc p n M (M / p) (fun k i j => (D k).Stored i j) a 1 B := by
    have hz : EllAcc p n M (M / p) (fun k i j => (D k).Stored i j) a 0
        (Ell.noinit (p * n) M (jv 0) (ji 0)) := by
      refine ⟨Ell.represents_iff.2 (Ell.noinit_rep _ _ _ _), rfl, fun i j _ _ => ⟨?_, ?_⟩, fun i _ => Nat.zero_le _⟩
      · rintro ⟨q, hq, -⟩
        exact absurd hq (Nat.not_lt_zero q)
      · rintro ⟨h, -⟩; omega
    have := ell_step hn hpp hm (hT 0 hpp).1 (hle 0 hpp) (fun _ _ _ _ => Iff.rfl) hz
    rw [Nat.zero_div, Nat.zero_mod, Nat.zero_mul] at this
    exact this
  refine writeNet_after (F := ellFiles f jv ji sc) (N := p * n) (M := M) (D := D) hp
      (fun k (B : Ell R) => EllAcc p n M (M / p) (fun k i j => (D k).Stored i j) a k B) h0
      fun k (B : Ell R) hk0 hk hB => ?_
  have hDk := Ell.represents_iff.1 (hT k hk).1
  obtain ⟨C, e, hC⟩ := Res.wp_exists (Ell.wp_deliver (E := False) hDk.shape
    (Ell.noinit_rep n (M / p) (jv k) (ji k)).shape hDk.dim.symm (hT k hk).2.symm)
  have hrow : ∀ i, i < n → C.row i = (D k).row i := fun i hi =>
    hC.row_eq (by rw [hDk.dim]; exact hi) (hDk.le i hi)
  obtain ⟨B', e', h'⟩ := ell_step hn hk hm (Ell.represents_iff.2 (hC.rep hDk))
    (fun i hi => by rw [hC.nnz i (by rw [hDk.dim]; exact hi)]; exact hle k hk i hi)
    (fun i j hi _ => by rw [Ell.stored_iff, hrow i hi, ← Ell.stored_iff]) hB
  refine ⟨B', ?_, h'⟩
  show (do
    let C ← (pure (Ell.noinit (p * n / p) (M / p) (jv k) (ji k)) : Res (Ell R))
    let C ← Ell.deliver C (D k)
    B.assignSubmatrix C (k / p * (p * n / p)) (k % p * (p * n / p))) = _
  rw [hN, Res.pure_eq, Res.bind_ok, e, Res.bind_ok, e']

/-! ## CSR -/

/-- Appending a shifted row: the row after it. -/
theorem csr_append {E : Prop} (icol : Nat) (Lb : SRow R) : ∀ {r : CsrRow R} {L : SRow R}, r.Is L →
    (forList Lb r fun p r => r.setNew (p.1 + icol) p.2).wp E
      (fun r' => r'.Is (L ++ Lb.map fun p => (p.1 + icol, p.2))) := by
  induction Lb with
  | nil => intro r L h; rw [forList_nil, Res.wp_ok]; simpa using h
  | cons q Lb ih =>
    intro r L h
    rw [forList_cons, Res.wp_bind]
    refine Res.wp_mono (CsrRow.wp_setNew h (q.1 + icol) q.2) ?_
    rintro r' ⟨h', -⟩
    refine Res.wp_mono (ih h') ?_
    intro r'' h''
    simpa using h''

/-- `bml_assign_submatrix` stores nothing new outside of the block. -/
theorem csr_assign_stored {E : Prop} {A B : Csr R} {N bN : Nat} {a b : Spec.Mat R} (hA : A.Rep N a)
    (hB : B.Rep bN b) {irow icol : Nat} (hr : irow + bN ≤ N) :
    (A.assignSubmatrix B irow icol).wp E (fun A' => ∀ i j, i < N → A'.Stored i j → A.Stored i j ∨
      ((irow ≤ i ∧ i < irow + bN) ∧ (icol ≤ j ∧ j < icol + bN))) := by
  unfold Csr.assignSubmatrix
  rw [hB.dim]
  refine wp_loop' (fun n (A' : Csr R) => A'.data.size = N ∧ (∀ i, i < N → (A'.data.get i).WF) ∧
    ∀ i j, i < N → A'.Stored i j → A.Stored i j ∨
      ((irow ≤ i ∧ i < irow + bN) ∧ (icol ≤ j ∧ j < icol + bN))) ?_ ?_ (fun A' h => h.2.2)
  · exact ⟨hA.size, fun i hi => (hA.holds i hi).1, fun i j _ h => Or.inl h⟩
  · rintro i hi A' ⟨h1, h2, h3⟩
    have hgB := hB.good hi
    rw [hB.read hi, Res.bind_ok, (hB.is hi).fold]
    have hok : (forList (B.row i) () fun p _ => if p.1 < bN then pure () else .error) = .ok () := by
      have : ∀ L : SRow R, (∀ p ∈ L, p.1 < bN) →
          (forList L () fun p _ => if p.1 < bN then pure () else .error) = .ok () := by
        intro L
        induction L with
        | nil => intro _; rfl
        | cons p L ih =>
          intro h
          rw [forList_cons, if_pos (h p (by simp)), Res.pure_eq, Res.bind_ok]
          exact ih (fun q hq => h q (by simp [hq]))
      exact this _ hgB.2
    rw [hok, Res.bind_ok]
    have hiN : i + irow < N := by omega
    refine Res.wp_mono (Csr.wp_onRow (by rw [h1]; exact hiN) (by
      rw [(hB.is hi).fold]
      exact csr_append icol (B.row i) ⟨h2 _ hiN, rfl⟩)) ?_
    rintro A'' ⟨k1, k2, k3, k4, k5⟩
    refine ⟨k3.trans h1, fun i' hi' => ?_, fun i' j hi' hst => ?_⟩
    · by_cases he : i' = i + irow
      · subst he; exact k4.1
      · rw [k5 i' he]; exact h2 i' hi'
    · by_cases he : i' = i + irow
      · subst he
        have hm := Csr.stored_iff.1 hst
        unfold Csr.row at hm
        rw [k4.2, List.map_append, List.mem_append] at hm
        rcases hm with hm | hm
        · exact h3 _ j hi' (Csr.stored_iff.2 hm)
        · simp only [List.map_map, List.mem_map, Function.comp] at hm
          obtain ⟨q, hq, rfl⟩ := hm
          have := hgB.2 q hq
          exact Or.inr ⟨⟨by omega, by omega⟩, by omega, by omega⟩
      · refine h3 i' j hi' ?_
        rw [Csr.stored_iff] at hst ⊢
        unfold Csr.row at hst ⊢
        rwa [k5 i' he] at hst

/-- Rank 0 has the first `k` tiles. -/
structure CsrAcc (p n : Nat) (a : Spec.Mat R) (k : Nat) (B : Csr R) : Prop where
  rep : B.Represents (p * n) (tilesTo p n k a fun _ _ => 0)
  stored : ∀ i j, i < p * n → j < p * n → B.Stored i j → tileAt p n i j < k

theorem csr_step (hn : 0 < n) {k : Nat} (hk : k < p * p) {B C : Csr R}
    (hC : C.Represents n (tile n (k / p) (k % p) a)) (hB : CsrAcc p n a k B) :
    ∃ B', B.assignSubmatrix C (k / p * n) (k % p * n) = .ok B' ∧ CsrAcc p n a (k + 1) B' := by
  obtain ⟨h1, h2, -⟩ := coords hk
  have w1 : k / p * n + n ≤ p * n := window_le h1
  have w2 : k % p * n + n ≤ p * n := window_le h2
  obtain ⟨B', e, -, hR⟩ := C28_csr_assign_partial hB.rep hC w1 w2 (by
    intro i j i1 i2 j1 j2 hst
    have h3 := hB.stored i j (by omega) (by omega) hst
    have h4 : tileAt p n i j = k := (window_iff hn (by omega)).1 ⟨⟨i1, i2⟩, j1, j2⟩
    omega)
  have hst : ∀ i j, i < p * n → B'.Stored i j → B.Stored i j ∨
      ((k / p * n ≤ i ∧ i < k / p * n + n) ∧ (k % p * n ≤ j ∧ j < k % p * n + n)) := by
    have := csr_assign_stored (E := False) (icol := k % p * n) (Csr.represents_iff.1 hB.rep)
      (Csr.represents_iff.1 hC) w1
    rw [e] at this
    exact this
  refine ⟨B', e, hR.congr fun i j _ hj => tilesTo_step hn a _ hj, fun i j hi hj h => ?_⟩
  rcases hst i j hi h with h | h
  · have := hB.stored i j hi hj h
    omega
  · have : tileAt p n i j = k := (window_iff hn hj).1 h
    omega

theorem csr_write {D : Nat → Csr R} (hp : 0 < p) (hn : 0 < n)
    (hD : Holds (fun A a => A.Represents n a) p n D a)
    (hfit : ∀ k, k < p * p → ∀ i, i < n → ((D k).data.get i).nnz ≤ max 10 (M / p)) (f : Mm.Fmt R) (big0 : R → Bool)
    (jv : Nat → Nat → Nat → R) (ji : Nat → Nat → Nat → Nat) (sc : Nat → Sched) :
    ∃ B, (writeNet (csrFiles f big0 jv ji sc) p (p * n) M D).after
        (writeStart (csrFiles f big0 jv ji sc) (p * n) M D)
        ((writeNet (csrFiles f big0 jv ji sc) p (p * n) M D).P - 1) = .ok B ∧
      B.Represents (p * n) a := by
  have hN : p * n / p = n := Nat.mul_div_cancel_left n hp
  have hpp : 0 < p * p := Nat.mul_pos hp hp
  have hT : ∀ k, k < p * p → (D k).Represents n (tile n (k / p) (k % p) a) := fun k hk => by
    obtain ⟨h1, h2, h3⟩ := coords hk
    have := hD _ _ h1 h2
    rwa [h3] at this
  have h0 : ∃ B, writeStart (csrFiles f big0 jv ji sc) (p * n) M D = .ok B ∧ CsrAcc p n a 1 B := by
    have hz : CsrAcc p n a 0 (Csr.noinit (p * n) M (jv 0) (ji 0)) := by
      refine ⟨Csr.represents_iff.2 (Csr.rep_noinit _ _ _ _), fun i j _ _ h => ?_⟩
      obtain ⟨q, hq, -⟩ := h
      exact absurd hq (Nat.not_lt_zero q)
    have := csr_step hn hpp (hT 0 hpp) hz
    rw [Nat.zero_div, Nat.zero_mod, Nat.zero_mul] at this
    exact this
  obtain ⟨B, e, h⟩ := writeNet_after (F := csrFiles f big0 jv ji sc) (N := p * n) (M := M) (D := D) hp
      (fun k (B : Csr R) => CsrAcc p n a k B) h0 fun k (B : Csr R) hk0 hk hB => by
    obtain ⟨C, e, -, hC⟩ := C57_csr_send_recv_partial (hT k hk)
      (Csr.represents_iff.2 (Csr.rep_noinit n (M / p) (jv k) (ji k))) (fun i hi => le_trans (hfit k hk i hi)
        (by
          show _ ≤ CsrRow.rowSpace (M / p)
          unfold CsrRow.rowSpace CsrRow.initRowSpace
          split <;> omega))
    obtain ⟨B', e', h'⟩ := csr_step hn hk hC hB
    refine ⟨B', ?_, h'⟩
    show (do
      let C ← (pure (Csr.noinit (p * n / p) (M / p) (jv k) (ji k)) : Res (Csr R))
      let C ← Csr.deliverBlocking C (D k)
      B.assignSubmatrix C (k / p * (p * n / p)) (k % p * (p * n / p))) = _
    rw [hN, Res.pure_eq, Res.bind_ok]
    unfold Csr.deliverBlocking
    rw [e, Res.bind_ok, e']
  exact ⟨B, e, h.rep.congr fun i j hi hj => tilesTo_all a _ hi hj⟩

/-! ## Reading -/

theorem dense_read {file : List Char} {f : Mm.Fmt R} {nz : R → Bool} {junk : Nat → Nat → R} {Z : Dense R}
    (hp : 0 < p) (e : readRoot (denseFiles f nz junk) (p * n) M file = .ok Z) (hZ : Z.Represents (p * n) a)
    {r : Nat} (hr : r < p * p) {A : Dense R} {b : Spec.Mat R} (hA : A.Represents n b) :
    ∃ A', readFile (denseFiles f nz junk) p (p * n) M file r A = .ok A' ∧
      A'.Represents n (tile n (prow p r) (pcol p r) a) := by
  have hN : p * n / p = n := Nat.mul_div_cancel_left n hp
  have hB : ∃ B0 B, readStart (denseFiles f nz junk) (p * n) M file r = .ok B0 ∧
      (denseFiles f nz junk).bcast r B0 Z = .ok B ∧ B.Represents (p * n) a := by
    unfold readStart
    by_cases h0 : r = 0
    · rw [if_pos h0, e]
      exact ⟨Z, Z, rfl, if_pos h0, hZ⟩
    · rw [if_neg h0]
      obtain ⟨B, eB, hB⟩ := C57_dense_send_recv hZ (C32_dense_zero (p * n))
      refine ⟨_, B, rfl, ?_, hB⟩
      show (if r = 0 then pure (Dense.zeroMatrix (p * n)) else
        Dense.deliver (Dense.zeroMatrix (p * n)) Z) = _
      rw [if_neg h0]
      exact eB
  obtain ⟨B0, B, e0, eb, hB⟩ := hB
  obtain ⟨C, eC, hC⟩ := C28_dense_extract hB (window_le (n := n) (prow_lt hr)) (window_le (n := n) (pcol_lt hr))
  obtain ⟨A', eA, hA'⟩ := (C07_dense_copy hC hA).1 rfl
  refine ⟨A', ?_, hA'⟩
  unfold readFile
  rw [e0, Res.bind_ok, e, Res.bind_ok, eb, Res.bind_ok, hN]
  show (B.extractSubmatrix (prow p r * n) (pcol p r * n) n >>= fun C => C.bmlCopy A) = _
  rw [eC, Res.bind_ok, eA]

theorem ell_read {file : List Char} {f : Mm.Fmt R} {jv : Nat → Nat → R} {ji : Nat → Nat → Nat}
    {sc : Nat → Sched} (hsc : ∀ r, r < p * p → IsSched 0 n (sc r)) {Z : Ell R}
    (hp : 0 < p) (hM : 0 < M / p) (e : readRoot (ellFiles f jv ji sc) (p * n) M file = .ok Z)
    (hZ : Z.Represents (p * n) a) (hZM : Z.M = M)
    (hfit : ∀ i J, i < p * n → J < p →
      ((Finset.range n).filter fun j => Z.Stored i (J * n + j)).card ≤ M / p)
    {r : Nat} (hr : r < p * p) {A : Ell R} {b : Spec.Mat R} (hA : A.Represents n b) (hAM : A.M = M / p) :
    ∃ A', readFile (ellFiles f jv ji sc) p (p * n) M file r A = .ok A' ∧
      A'.Represents n (tile n (prow p r) (pcol p r) a) ∧ A'.M = M / p := by
  have hN : p * n / p = n := Nat.mul_div_cancel_left n hp
  have hMpos : 0 < M := Nat.pos_of_ne_zero (by rintro rfl; simp at hM)
  have hZ' := Ell.represents_iff.1 hZ
  have hB : ∃ B0 B, readStart (ellFiles f jv ji sc) (p * n) M file r = .ok B0 ∧
      (ellFiles f jv ji sc).bcast r B0 Z = .ok B ∧ B.Represents (p * n) a ∧
      ∀ i j, i < p * n → (B.Stored i j ↔ Z.Stored i j) := by
    unfold readStart
    by_cases h0 : r = 0
    · rw [if_pos h0, e]
      exact ⟨Z, Z, rfl, if_pos h0, hZ, fun _ _ _ => Iff.rfl⟩
    · rw [if_neg h0]
      have hz := Ell.zero_rep (R := R) (p * n) M
      obtain ⟨B, eB, hB⟩ := Res.wp_exists (Ell.wp_deliver (E := False) hZ'.shape hz.shape
        hZ'.dim.symm hZM.symm)
      refine ⟨Ell.zeroMatrix (p * n) M, B, if_pos hMpos, ?_, Ell.represents_iff.2 (hB.rep hZ'), fun i j hi => ?_⟩
      · show (if r = 0 then pure (Ell.zeroMatrix (p * n) M) else
          Ell.deliver (Ell.zeroMatrix (p * n) M) Z) = _
        rw [if_neg h0]
        exact eB
      · rw [Ell.stored_iff, Ell.stored_iff, hB.row_eq (by rw [hZ'.dim]; exact hi) (hZ'.le i hi)]
  obtain ⟨B0, B, e0, eb, hB, hBS⟩ := hB
  have w1 := window_le (n := n) (prow_lt hr)
  obtain ⟨C, eC, hCM, hC⟩ := C28_extract hB (BM := M / p) hM w1 (window_le (n := n) (pcol_lt hr))
    (fun i hi => by
      simp only [hBS (prow p r * n + i) _ (by omega)]
      exact hfit _ _ (by omega) (pcol_lt hr))
  have hC' := Ell.represents_iff.1 hC
  have hA' := Ell.represents_iff.1 hA
  obtain ⟨A', eA, h⟩ := Res.wp_exists (Ell.wp_copyInto (E := False) hC'.shape hA'.shape
    (hA'.dim.trans hC'.dim.symm) (hAM.trans hCM.symm) (by omega) (by rw [hC'.dim]; exact hsc r hr))
  refine ⟨A', ?_, Ell.represents_iff.2 (h.rep hC'), h.M.trans hCM⟩
  unfold readFile
  rw [e0, Res.bind_ok, e, Res.bind_ok, eb, Res.bind_ok, hN]
  show (B.extractSubmatrix (prow p r * n) (pcol p r * n) n (M / p) >>= fun C => C.bmlCopy A (sc r)) = _
  rw [eC, Res.bind_ok]
  unfold Ell.bmlCopy
  rw [if_neg (by rw [hC'.dim, hA'.dim]; simp), if_neg (by omega), eA]

theorem csr_read {file : List Char} {f : Mm.Fmt R} {big0 : R → Bool} (hb0 : ∀ x, big0 x = false → x = 0)
    {jv : Nat → Nat → Nat → R} {ji : Nat → Nat → Nat → Nat}
    {sc : Nat → Sched} (hsc : ∀ r, r < p * p → IsSched 0 n (sc r)) {Z : Csr R}
    (hp : 0 < p) (e : readRoot (csrFiles f big0 jv ji sc) (p * n) M file = .ok Z)
    (hZ : Z.Represents (p * n) a) (hpos : ∃ i j, i < p * n ∧ Z.Stored i j)
    {r : Nat} (hr : r < p * p) {A : Csr R} {b : Spec.Mat R} (hA : A.Represents n b)
    (hroom : ∀ i, i < n → n ≤ (A.data.get i).alloc) :
    ∃ A', readFile (csrFiles f big0 jv ji sc) p (p * n) M file r A = .ok A' ∧
      A'.Represents n (tile n (prow p r) (pcol p r) a) := by
  have hN : p * n / p = n := Nat.mul_div_cancel_left n hp
  have hB : ∃ B0 B, readStart (csrFiles f big0 jv ji sc) (p * n) M file r = .ok B0 ∧
      (csrFiles f big0 jv ji sc).bcast r B0 Z = .ok B ∧ B.Represents (p * n) a := by
    unfold readStart
    by_cases h0 : r = 0
    · rw [if_pos h0, e]
      obtain ⟨B, eB, -, hB⟩ := C57_csr_bcast hZ hZ hb0 hpos
      exact ⟨Z, B, rfl, eB, hB⟩
    · rw [if_neg h0]
      obtain ⟨B, eB, -, hB⟩ := C57_csr_bcast hZ (C32_csr_zero (p * n) M) hb0 hpos
      exact ⟨_, B, rfl, eB, hB⟩
  obtain ⟨B0, B, e0, eb, hB⟩ := hB
  obtain ⟨C, eC, -, hC⟩ := C28_csr_extract hB (M / p) (window_le (n := n) (prow_lt hr))
    (window_le (n := n) (pcol_lt hr)) big0 hb0 (jv r 0) (ji r 0)
  have hC' := Csr.represents_iff.1 hC
  obtain ⟨A', eA, hA'⟩ := (C07_csr_copy_partial hC hA (hsc r hr)).2 fun i hi =>
    le_trans (by
      have hg := hC'.good hi
      have := hg.length_le
      rwa [Csr.row, CsrRow.list_length] at this) (hroom i hi)
  refine ⟨A', ?_, hA'⟩
  unfold readFile
  rw [e0, Res.bind_ok, e, Res.bind_ok, eb, Res.bind_ok, hN]
  show (B.extractSubmatrix (prow p r * n) (pcol p r * n) n (M / p) big0 (jv r 0) (ji r 0) >>= fun C =>
    C.copyInto A (sc r)) = _
  rw [eC, Res.bind_ok, eA]

theorem ell_writes_stored : ∀ (es : List (Nat × Nat × R)) {A Z : Ell R}, A.Shape →
    (∀ e ∈ es, e.1 < A.N) →
    (∀ i, i < A.N → A.nnz.get i + (es.filter (fun e => e.1 = i)).length ≤ A.M) →
    forList es A (fun e A => A.setElementNew e.1 e.2.1 e.2.2) = .ok Z →
    ∀ i j, i < A.N → (Z.Stored i j ↔ A.Stored i j ∨ ∃ v, (i, j, v) ∈ es) := by
  intro es
  induction es with
  | nil =>
    intro A Z _ _ _ e i j _
    rw [forList_nil] at e
    injection e with e
    subst e
    simp
  | cons w es ih =>
    intro A Z hS hw hc e i j hi
    obtain ⟨i0, j0, v0⟩ := w
    have hi0 : i0 < A.N := hw (i0, j0, v0) (by simp)
    have hcap : A.nnz.get i0 < A.M := by
      have := hc i0 hi0
      simp at this
      omega
    rw [forList_cons, Ell.setElementNew_append hS hi0 v0 hcap, Res.bind_ok] at e
    have c2 : ∀ i', i' < A.N → (A.app i0 j0 v0).nnz.get i' + (es.filter (fun w => w.1 = i')).length
        ≤ (A.app i0 j0 v0).M := by
      intro i' hi'
      have := hc i' hi'
      rw [Ell.app_nnz]
      show _ ≤ A.M
      by_cases he : i' = i0
      · subst he
        simp at this ⊢
        omega
      · have hne : ¬ i0 = i' := fun h => he h.symm
        simp [hne] at this
        simp [he, this]
    rw [ih (Ell.app_shape hS _ _ _) (fun w hw' => hw w (by simp [hw'])) c2 e i j hi,
      Ell.app_stored hcap (by have := hc i hi; omega)]
    simp only [List.mem_cons, Prod.mk.injEq]
    constructor
    · rintro ((h | ⟨h1, h2⟩) | ⟨v, h⟩)
      · exact Or.inl h
      · exact Or.inr ⟨v0, Or.inl ⟨h1, h2, rfl⟩⟩
      · exact Or.inr ⟨v, Or.inr h⟩
    · rintro (h | ⟨v, ⟨h1, h2, -⟩ | h⟩)
      · exact Or.inl (Or.inl h)
      · exact Or.inl (Or.inr ⟨h1, h2⟩)
      · exact Or.inr ⟨v, h⟩

/-- Reading back what was written stores what was stored. -/
theorem ell_round {N : Nat} {B : Ell R} (hB : B.Represents N a) {f : Mm.Fmt R} (hk : Mm.Word f.kind)
    (hv : ∀ i j, i < N → j < N → f.Exact (a i j)) {M : Nat} (hroom : ∀ i, i < N → B.nnz.get i ≤ M) :
    ∃ file Z, B.writeMm f = .ok file ∧ (Ell.zeroMatrix N M).readMm f file = .ok Z ∧ Z.M = M ∧
      Z.Represents N a ∧ ∀ i j, i < N → (Z.Stored i j ↔ B.Stored i j) := by
  obtain ⟨file, Z, e1, e2, h1, h2⟩ := C27_ellpack_round_trip hB hk hv hroom
  refine ⟨file, Z, e1, e2, h1, h2, fun i j hi => ?_⟩
  have hR := Ell.represents_iff.1 hB
  rw [Ell.writeMm_eq hR f] at e1
  injection e1 with e1
  subst e1
  rw [Ell.readMm_eq hk word_general _ N _ (fun e he => by
    obtain ⟨i, j, v⟩ := e
    obtain ⟨h1, h2⟩ := Mm.mem_rowEntries.1 he
    rw [hR.dim] at h1
    have hg := hR.good i h1
    have hj : j < N := hg.2 _ h2
    simp only
    rw [← SRow.den_of_mem hg.1 h2, hR.den i j h1 hj]
    exact hv _ _ h1 hj), if_neg (by decide)] at e2
  have hz := Ell.zero_rep (R := R) N M
  rw [ell_writes_stored B.entries hz.shape (fun e he => by
      obtain ⟨i, j, v⟩ := e
      have := (Mm.mem_rowEntries.1 he).1
      rwa [hR.dim] at this)
    (fun i hi => by
      unfold Ell.entries
      rw [Mm.rowEntries_count (N := N), if_pos (by rw [hR.dim]; exact hi), Ell.row_length]
      have := hroom i hi
      show 0 + _ ≤ M
      omega) e2 i j hi, Ell.stored_iff (A := B)]
  constructor
  · rintro (⟨q, hq, -⟩ | ⟨v, h⟩)
    · exact absurd hq (Nat.not_lt_zero q)
    · exact List.mem_map.2 ⟨_, (Mm.mem_rowEntries.1 h).2, rfl⟩
  · intro h
    obtain ⟨⟨c, v⟩, hq, rfl⟩ := List.mem_map.1 h
    exact Or.inr ⟨v, Mm.mem_rowEntries.2 ⟨by rw [hR.dim]; exact hi, hq⟩⟩

theorem csr_exists_stored {N : Nat} {Z : Csr R} (hZ : Z.Represents N a) {i j : Nat} (hi : i < N)
    (hj : j < N) (h : a i j ≠ 0) : Z.Stored i j := by
  rw [Csr.stored_iff]
  by_contra hno
  exact h (((Csr.represents_iff.1 hZ).holds i hi).2.2 j hj ▸ SRow.den_of_not_mem hno)

end Bml.Dist
