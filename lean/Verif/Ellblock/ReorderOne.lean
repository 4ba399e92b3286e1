import Verif.Ellblock.Reorder
import Verif.Ellpack.Update

/-!
# `bml_reorder` of block-ELLPACK matrices with one block in each block row
-/

namespace Bml
namespace EllB

variable {R : Type} {E : Prop}

/-- `NB` block rows with room for one block and one block in each, all of size `s`; `T q` is the block column
and the content of the block of row `q`. -/
structure One (A : EllB R) (NB s : Nat) (T : Nat → Nat × Arr R) : Prop where
  nb_eq : A.NB = NB
  mb_eq : A.MB = 1
  bs_size : A.bsize.size = NB
  bs : ∀ q, q < NB → A.bsize.get q = s
  nz_size : A.nnzb.size = NB
  nz : ∀ q, q < NB → A.nnzb.get q = 1
  ix_size : A.indexb.size = NB
  ix : ∀ q, q < NB → A.indexb.get q = (T q).1
  ptr_size : A.ptr.size = NB
  live : ∀ q, q < NB → ∃ a, A.ptr.get q = some a ∧ A.heap a = some (T q).2
  own : ∀ q q', q < NB → q' < NB → A.ptr.get q = A.ptr.get q' → q = q'
  size : ∀ q, q < NB → s * s ≤ (T q).2.size
  fresh : ∀ a, A.next ≤ a → A.heap a = none

theorem off_const {bs : Nat → Nat} {n s : Nat} (h : ∀ q, q < n → bs q = s) : off bs n = n * s := by
  unfold off
  rw [Finset.sum_congr rfl fun k hk => h k (Finset.mem_range.1 hk), Finset.sum_const, Finset.card_range,
    smul_eq_mul]

section
variable [AddCommMonoid R] {N : Nat} {a : Spec.Mat R}

theorem Rows.one {A : EllB R} {L : Nat → BRow R} (h : A.Rows N L a) (hMB : A.MB = 1) {s : Nat}
    (hs : ∀ q, q < A.NB → A.bsize.get q = s) (h1 : ∀ q, q < A.NB → (L q).length = 1) :
    ∃ T, A.One A.NB s T ∧ (∀ q, q < A.NB → (T q).1 < A.NB) ∧
      ∀ i j ii jj, i < A.NB → j < A.NB → ii < s → jj < s →
        (if (T i).1 = j then (T i).2.get (ii * s + jj) else 0) = a (i * s + ii) (j * s + jj) := by
  have : ∀ q, ∃ p, q < A.NB → L q = [p] := by
    intro q
    by_cases hq : q < A.NB
    · obtain ⟨p, hp⟩ := List.length_eq_one_iff.1 (h1 q hq)
      exact ⟨p, fun _ => hp⟩
    · exact ⟨(0, ⟨0, fun _ => 0⟩), fun h => absurd h hq⟩
  choose T hT using this
  have hsl : ∀ q, q < A.NB → (L q)[0]? = some ((T q).1, (T q).2) := fun q hq => by rw [hT q hq]; rfl
  have e : ∀ q, q * A.MB + 0 = q := fun q => by rw [hMB, Nat.mul_one, Nat.add_zero]
  refine ⟨T, ⟨rfl, hMB, h.is.bs_size, hs, h.is.nz_size, fun q hq => by rw [h.is.nz q hq, h1 q hq],
    by rw [h.is.ix_size, hMB, Nat.mul_one], fun q hq => ?_, by rw [h.is.ptr_size, hMB, Nat.mul_one],
    fun q hq => ?_, fun q q' hq hq' he => ?_, fun q hq => ?_, h.is.fresh⟩, fun q hq => ?_, ?_⟩
  · have := (h.is.slot q 0 _ _ hq (hsl q hq)).1
    rwa [e] at this
  · have := (h.is.slot q 0 _ _ hq (hsl q hq)).2
    rwa [e] at this
  · exact (h.is.own q 0 q' 0 hq (by rw [h1 q hq]; decide) hq' (by rw [h1 q' hq']; decide)
      (by rw [e, e]; exact he)).1
  · have h2 := (h.good q hq).size (T q) (by rw [hT q hq]; exact List.mem_singleton_self _)
    have h3 := (h.good q hq).lt (T q) (by rw [hT q hq]; exact List.mem_singleton_self _)
    rwa [hs q hq, hs _ h3] at h2
  · exact (h.good q hq).lt (T q) (by rw [hT q hq]; exact List.mem_singleton_self _)
  · intro i j ii jj hi hj hii hjj
    have := h.den i j ii jj hi hj (by rwa [hs i hi]) (by rwa [hs j hj])
    rw [hs j hj, off_const fun q hq => hs q (by omega), off_const fun q hq => hs q (by omega), hT i hi,
      val_cons, val_nil, add_zero] at this
    exact this

theorem One.represents {A : EllB R} {NB s : Nat} {T : Nat → Nat × Arr R} (h : A.One NB s T)
    (hN : A.N = NB * s) (hlt : ∀ q, q < NB → (T q).1 < NB)
    (hd : ∀ i j ii jj, i < NB → j < NB → ii < s → jj < s →
      (if (T i).1 = j then (T i).2.get (ii * s + jj) else 0) = a (i * s + ii) (j * s + jj)) :
    A.Represents (NB * s) a := by
  have e : ∀ q, q * A.MB + 0 = q := fun q => by rw [h.mb_eq, Nat.mul_one, Nat.add_zero]
  have hNB := h.nb_eq
  refine represents_iff.2 ⟨fun q => [T q], ⟨⟨by rw [h.bs_size, h.nb_eq], by rw [h.nz_size, h.nb_eq],
    by rw [h.ix_size, h.nb_eq, h.mb_eq, Nat.mul_one], by rw [h.ptr_size, h.nb_eq, h.mb_eq, Nat.mul_one],
    fun q hq => h.nz q (hNB ▸ hq), fun q hq => by rw [h.mb_eq]; rfl, ?_, ?_, h.fresh⟩, fun q hq => ?_, hN, ?_, ?_⟩⟩
  · rintro q jp jb b hq hs
    cases jp with
    | succ n => cases hs
    | zero =>
      have hs' : T q = (jb, b) := Option.some.inj hs
      rw [e, h.ix q (hNB ▸ hq), hs']
      refine ⟨rfl, ?_⟩
      have := h.live q (hNB ▸ hq)
      rwa [hs'] at this
  · intro q jp q' jp' hq hj hq' hj' he
    obtain rfl : jp = 0 := by simpa using hj
    obtain rfl : jp' = 0 := by simpa using hj'
    rw [e, e] at he
    exact ⟨h.own q q' (hNB ▸ hq) (hNB ▸ hq') he, rfl⟩
  · rw [hNB] at hq
    refine ⟨List.nodup_singleton _, fun p hp => ?_, fun p hp => ?_⟩
    · rw [List.mem_singleton.1 hp, hNB]
      exact hlt q hq
    · rw [List.mem_singleton.1 hp, h.bs q hq, h.bs _ (hlt q hq)]
      exact h.size q hq
  · rw [hNB]
    exact off_const h.bs
  · intro i j ii jj hi hj hii hjj
    rw [hNB] at hi hj
    rw [h.bs i hi] at hii
    rw [h.bs j hj] at hjj
    rw [h.bs j hj, off_const fun q hq => h.bs q (by omega), off_const fun q hq => h.bs q (by omega), val_cons,
      val_nil, add_zero]
    exact hd i j ii jj hi hj hii hjj

end

/-- One row of the copy goes to its place. -/
theorem One.reorderRow {A B : EllB R} {NB s : Nat} {T X : Nat → Nat × Arr R} (hA : A.One NB s T)
    (hB : B.One NB s X) {perm : Arr Nat} {ib : Nat} (hib : ib < NB) (hp : ib < perm.size)
    (hlt : perm.get ib < NB) (hX : (X ib).1 < NB) :
    ∃ A', reorderRow perm B ib A = .ok A' ∧ A'.N = A.N ∧ ∃ b : Arr R,
      A'.One NB s (upd T (perm.get ib) ((X ib).1, b)) ∧ ∀ k, k < s * s → b.get k = (X ib).2.get k := by
  obtain ⟨q, hq⟩ : ∃ q, perm.get ib = q := ⟨_, rfl⟩
  rw [hq] at hlt ⊢
  obtain ⟨ix, e1, h1, h2⟩ := Res.wp_exists (wp_copyRange (E := False) (src := B.indexb) (dst := A.indexb)
    (s := ib) (d := q) (n := 1) (by rw [hB.ix_size]; omega) (by rw [hA.ix_size]; omega))
  obtain ⟨x, hx1, hx2⟩ := hB.live ib hib
  obtain ⟨y, hy1, hy2⟩ := hA.live q hlt
  have hbB : B.block ib = .ok (X ib).2 := by
    unfold EllB.block
    rw [Arr.read_ok (by rw [hB.ptr_size]; exact hib), Res.bind_ok, hx1]
    simp only [hx2]
  have hbA : A.block q = .ok (T q).2 := by
    unfold EllB.block
    rw [Arr.read_ok (by rw [hA.ptr_size]; exact hlt), Res.bind_ok, hy1]
    simp only [hy2]
  unfold EllB.reorderRow
  simp only [ROWMAJOR, hA.mb_eq, Nat.mul_one, Nat.add_zero]
  rw [Arr.read_ok hp, Res.bind_ok, hq, e1, Res.bind_ok, loop_succ, loop_zero, Res.bind_ok, Nat.add_zero,
    Arr.read_ok (by rw [hB.ix_size]; exact hib), Res.bind_ok, hB.ix ib hib,
    Arr.read_ok (by rw [hB.bs_size]; exact hX), Res.bind_ok, hB.bs _ hX]
  show ∃ A', (Res.ok (0 + s) >>= _) = _ ∧ _
  rw [Res.bind_ok, Nat.zero_add, Arr.read_ok (by rw [hB.bs_size]; exact hib), Res.bind_ok, hB.bs _ hib, hbB,
    Res.bind_ok, hbA, Res.bind_ok]
  unfold copyTo
  rw [if_pos ⟨hB.size ib hib, hA.size q hlt⟩, Res.bind_ok]
  unfold EllB.putBlock
  simp only
  rw [Arr.read_ok (by rw [hA.ptr_size]; exact hlt), Res.bind_ok, hy1]
  simp only [hy2]
  rw [Res.bind_ok, Arr.read_ok (by rw [hB.nz_size]; exact hib), Res.bind_ok, hB.nz ib hib]
  unfold EllB.setNnzb
  simp only
  rw [Arr.write_ok _ (by rw [hA.nz_size]; exact hlt), Res.bind_ok]
  refine ⟨_, rfl, rfl, ⟨(T q).2.size, fun k => if k < s * s then (X ib).2.get k else (T q).2.get k⟩, ?_, ?_⟩
  · refine ⟨hA.nb_eq, rfl, hA.bs_size, hA.bs, hA.nz_size, fun r hr => ?_, by rw [← hA.ix_size, ← h1],
      fun r hr => ?_, hA.ptr_size, fun r hr => ?_, hA.own, fun r hr => ?_, fun z hz => ?_⟩
    · simp only
      by_cases h : r = q
      · rw [h, upd_same]
      · rw [upd_ne _ _ h, hA.nz r hr]
    · simp only
      rw [h2 r]
      by_cases h : r = q
      · subst h
        rw [if_pos ⟨le_rfl, by omega⟩, upd_same, Nat.sub_self, Nat.add_zero, hB.ix ib hib]
      · rw [if_neg (by omega), upd_ne _ _ h, hA.ix r hr]
    · simp only
      by_cases h : r = q
      · subst h
        exact ⟨y, hy1, by rw [upd_same, upd_same]⟩
      · obtain ⟨z, hz1, hz2⟩ := hA.live r hr
        refine ⟨z, hz1, ?_⟩
        rw [upd_ne _ _ h, upd_ne, hz2]
        rintro rfl
        exact h (hA.own r q hr hlt (hz1.trans hy1.symm))
    · by_cases h : r = q
      · rw [h, upd_same]
        exact hA.size q hlt
      · rw [upd_ne _ _ h]
        exact hA.size r hr
    · simp only at hz ⊢
      rw [upd_ne]
      · exact hA.fresh z hz
      · rintro rfl
        rw [hA.fresh z hz] at hy2
        cases hy2
  · exact fun k hk => if_pos hk

/-- The whole call, where the copy is `B`. -/
theorem One.wp_reorder {A B : EllB R} {NB s : Nat} {T X : Nat → Nat × Arr R} (hA : A.One NB s T)
    (hB : B.One NB s X) (hX : ∀ q, q < NB → (X q).1 < NB) {g : Glob} {sc : Sched}
    (e : copyMatrix g sc A = .ok (g, B)) {perm : Arr Nat} (hp : NB ≤ perm.size)
    (hlt : ∀ i, i < NB → perm.get i < NB)
    (hinj : ∀ i j, i < NB → j < NB → perm.get i = perm.get j → i = j) :
    ∃ A', reorder g sc perm A = .ok (g, A') ∧ A'.N = A.N ∧ ∃ T', A'.One NB s T' ∧ ∀ i, i < NB →
      (T' (perm.get i)).1 = perm.get (X i).1 ∧
      ∀ k, k < s * s → (T' (perm.get i)).2.get k = (X i).2.get k := by
  unfold reorder
  rw [e, Res.bind_ok]
  simp only
  obtain ⟨bs, e1, h1, h2⟩ := Res.wp_exists (wp_loop' (E := False) (n := A.NB) (s := A.bsize)
    (f := fun i bs => do
      let p ← perm.read i
      let b ← B.bsize.read p
      bs.write i b)
    (fun _ (bs : Arr Nat) => bs.size = NB ∧ ∀ q, q < NB → bs.get q = s) ⟨hA.bs_size, hA.bs⟩ (by
      rintro k hk bs ⟨i1, i2⟩
      rw [hA.nb_eq] at hk
      rw [Arr.read_ok (by omega), Res.bind_ok, Arr.read_ok (by rw [hB.bs_size]; exact hlt k hk), Res.bind_ok,
        hB.bs _ (hlt k hk), Arr.write_ok _ (by omega)]
      refine ⟨i1, fun q hq => ?_⟩
      by_cases h : q = k
      · simp only [h, upd_same]
      · simp only [upd_ne _ _ h, i2 q hq]) fun _ h => h)
  rw [e1, Res.bind_ok]
  have h0 : ({ A with bsize := bs } : EllB R).One NB s T :=
    ⟨hA.nb_eq, hA.mb_eq, h1, h2, hA.nz_size, hA.nz, hA.ix_size, hA.ix, hA.ptr_size, hA.live, hA.own, hA.size, hA.fresh⟩
  obtain ⟨A2, e2, n2, T2, o2, r2⟩ := Res.wp_exists (wp_loop' (E := False) (n := A.NB)
    (s := ({ A with bsize := bs } : EllB R)) (f := fun ib A => EllB.reorderRow perm B ib A)
    (fun k A' => A'.N = A.N ∧ ∃ T', A'.One NB s T' ∧ ∀ i, i < k → (T' (perm.get i)).1 = (X i).1 ∧
      ∀ x, x < s * s → (T' (perm.get i)).2.get x = (X i).2.get x)
    ⟨rfl, T, h0, fun i hi => absurd hi (by omega)⟩ (by
      rintro k hk A1 ⟨i1, T1, i2, i3⟩
      rw [hA.nb_eq] at hk
      obtain ⟨A', e', n', b, o', hb⟩ := i2.reorderRow hB (perm := perm) hk (by omega) (hlt k hk) (hX k hk)
      rw [e']
      refine ⟨n'.trans i1, _, o', fun i hi => ?_⟩
      by_cases h : i = k
      · subst h
        rw [upd_same]
        exact ⟨rfl, hb⟩
      · rw [upd_ne _ _ fun h' => h (hinj i k (by omega) hk h')]
        exact i3 i (by omega)) fun _ h => h)
  rw [hA.nb_eq] at e2
  simp only [hA.nb_eq]
  rw [e2, Res.bind_ok]
  rw [hA.nb_eq] at r2
  have hlt2 : ∀ q, q < NB → (T2 q).1 < NB := by
    intro q hq
    obtain ⟨i, hi, rfl⟩ : ∃ i, i < NB ∧ perm.get i = q := by
      have hs : Function.Surjective fun i : Fin NB => (⟨perm.get i, hlt i i.2⟩ : Fin NB) :=
        Finite.surjective_of_injective fun i j h => Fin.ext (hinj i j i.2 j.2 (congrArg Fin.val h))
      obtain ⟨i, hi⟩ := hs ⟨q, hq⟩
      exact ⟨i, i.2, congrArg Fin.val hi⟩
    rw [(r2 i hi).1]
    exact hX i hi
  obtain ⟨A3, e3, n3, o3⟩ := Res.wp_exists (wp_loop' (E := False) (n := NB) (s := A2)
    (f := fun ib A => do
      let n ← A.nnzb.read ib
      loop n A fun jp A => do
        let jb ← A.indexb.read (ROWMAJOR ib jp A.NB A.MB)
        let p ← perm.read jb
        A.setIndex (ROWMAJOR ib jp A.NB A.MB) p)
    (fun k A' => A'.N = A.N ∧ A'.One NB s fun q => if q < k then (perm.get (T2 q).1, (T2 q).2) else T2 q)
    ⟨n2, by simpa using o2⟩ (by
      rintro k hk A1 ⟨i1, i2⟩
      have hix := i2.ix k hk
      rw [if_neg (by omega)] at hix
      rw [Arr.read_ok (by rw [i2.nz_size]; exact hk), Res.bind_ok, i2.nz k hk, loop_succ, loop_zero, Res.bind_ok]
      simp only [ROWMAJOR, i2.mb_eq, Nat.mul_one, Nat.add_zero]
      rw [Arr.read_ok (by rw [i2.ix_size]; exact hk), Res.bind_ok, hix,
        Arr.read_ok (by have := hlt2 k hk; omega), Res.bind_ok]
      unfold EllB.setIndex
      rw [Arr.write_ok _ (by rw [i2.ix_size]; exact hk), Res.bind_ok]
      refine ⟨i1, i2.nb_eq, i2.mb_eq, i2.bs_size, i2.bs, i2.nz_size, i2.nz, i2.ix_size, fun q hq => ?_, i2.ptr_size,
        fun q hq => ?_, i2.own, fun q hq => ?_, i2.fresh⟩
      · simp only
        by_cases h : q = k
        · subst h
          rw [upd_same, if_pos (by omega)]
        · rw [upd_ne _ _ h, i2.ix q hq]
          by_cases h' : q < k
          · rw [if_pos h', if_pos (by omega)]
          · rw [if_neg h', if_neg (by omega)]
      · have := i2.live q hq
        simp only at this ⊢
        split
        · split at this <;> exact this
        · rwa [if_neg (by omega)] at this
      · have := i2.size q hq
        split
        · split at this <;> exact this
        · rwa [if_neg (by omega)] at this) fun _ h => h)
  rw [show A2.NB = NB from o2.nb_eq, e3, Res.bind_ok]
  refine ⟨A3, rfl, n3, _, o3, fun i hi => ?_⟩
  rw [if_pos (hlt i hi)]
  exact ⟨congrArg perm.get (r2 i hi).1, (r2 i hi).2⟩

end EllB
end Bml
