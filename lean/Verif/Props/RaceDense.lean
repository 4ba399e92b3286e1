import Verif.Race.Dense
import Verif.Props.Dense

/-!
# C77: the parallel loops of the dense format
-/

namespace Bml
namespace Props

open Race

variable {R : Type}

/-- Cell `p` of any matrix belongs to iteration `p`. -/
private def cellOwn (p : Nat) : DLoc → Prop
  | .cell _ q => q = p
  | .temp => False

/-- The cells `(i, j)` and `(j, i)` with `i < j` of matrix `x` belong to iteration `i`. -/
private def pairOwn (N x i : Nat) (l : DLoc) : Prop :=
  ∃ j, i < j ∧ j < N ∧ (l = .cell x (ROWMAJOR i j N N) ∨ l = .cell x (ROWMAJOR j i N N))

private theorem pair_disjoint {N x : Nat} (i i' : Nat) (l : DLoc) (hne : i ≠ i') (h : pairOwn N x i l) :
    ¬ pairOwn N x i' l := by
  obtain ⟨j, h1, h2, h⟩ := h
  rintro ⟨j', h1', h2', h'⟩
  rcases h with rfl | rfl <;> rcases h' with h' | h' <;>
    · have := rowmajor_inj (by omega) (by omega) (DLoc.cell.inj h').2
      omega

private theorem sched_mem {lo hi : Nat} {sc : Sched} (h : IsSched lo hi sc) (i : Nat) :
    (∃ t, (t, i) ∈ sc) ↔ lo ≤ i ∧ i < hi := by
  rw [← h.mem i]
  simp

private theorem rowmajor_lt {N i j : Nat} (hi : i < N) (hj : j < N) : ROWMAJOR i j N N < N * N := addr_lt hi hj

/-- Loops over all cells. -/
private theorem cells_safe {N z : Nat} {m0 : Mem (dty R)} {b : Spec.Mat R} {sc : Sched} (hsc : IsSched 0 (N * N) sc)
    {body : Nat → Unit → Prog (dty R) Unit}
    (hb : ∀ i j, i < N → j < N → ∀ m : Mem (dty R), (∀ y, m (.cell y (ROWMAJOR i j N N)) = m0 (.cell y (ROWMAJOR i j N N))) →
      (body (ROWMAJOR i j N N) ()).wp (cellOwn (ROWMAJOR i j N N)) (fun _ => False) m fun _ m' =>
        m' (.cell z (ROWMAJOR i j N N)) = b i j ∧
          ∀ y, y ≠ z → m' (.cell y (ROWMAJOR i j N N)) = m0 (.cell y (ROWMAJOR i j N N))) :
    (Team.start m0 () sc body).Safe (dinb N) fun m =>
      (dmat N m z).Represents N b ∧ ∀ y, y ≠ z → dmat N m y = dmat N m0 y := by
  refine Team.Safe.mono (Team.direct (own := cellOwn) (ro := fun _ => False) (target := dtarget N m0 z b)
    ?_ (fun _ _ h => h.elim) ?_ (fun _ h => h.elim) hsc.nodup ?_) ?_
  · intro i j l hne h h'
    cases l with
    | cell y q => exact hne (h.symm.trans h')
    | temp => exact h
  · intro p hp l h
    have := (sched_mem hsc p).1 hp
    cases l with
    | cell y q =>
      cases h
      exact decide_eq_true this.2
    | temp => rfl
  · intro p hp m hm
    have hlt := ((sched_mem hsc p).1 hp).2
    have hN : 0 < N := Nat.pos_of_ne_zero fun h => by subst h; omega
    have e : p = ROWMAJOR (p / N) (p % N) N N := (Nat.div_add_mod' p N).symm
    have h2 : p % N < N := Nat.mod_lt _ hN
    have h1 : p / N < N := Nat.div_lt_of_lt_mul hlt
    have := hb (p / N) (p % N) h1 h2 m fun y => hm _ fun j hj h => hj (by rw [← e] at h; exact h.symm)
    rw [← e] at this
    refine Prog.wp_mono this ?_
    rintro _ m' ⟨h3, h4⟩ l hl
    cases l with
    | temp => exact hl.elim
    | cell y q =>
      cases hl
      by_cases c : y = z
      · subst c
        rw [h3]
        show _ = if y = y then b (p / N) (p % N) else _
        rw [if_pos rfl]
      · rw [h4 y c, dtarget_ne c]
  · rintro m ⟨h1, h2⟩
    refine ⟨dmat_rep.2 fun i j hi hj => ?_, fun y hy => dmat_ext fun p => ?_⟩
    · rw [h1 _ ((sched_mem hsc _).2 ⟨Nat.zero_le _, rowmajor_lt hi hj⟩) (.cell z _) (Eq.refl (ROWMAJOR i j N N)), dtarget_at hj]
    · by_cases c : ∃ t, (t, p) ∈ sc
      · rw [h1 p c (.cell y p) (Eq.refl p), dtarget_ne hy]
      · refine h2 _ fun i hi h => c ?_
        cases h
        exact hi

/-- **C77**, `bml_threshold` of a dense matrix. -/
theorem C77_dense_threshold [Zero R] {N x : Nat} {m0 : Mem (dty R)} {a : Spec.Mat R} {big : R → Bool}
    {sc : Sched} (hA : (dmat N m0 x).Represents N a) (hsc : IsSched 0 (N * N) sc) :
    (dThresholdTeam m0 x big sc).Safe (dinb N) fun m =>
      (dmat N m x).Represents N (Spec.threshold big a) ∧ ∀ y, y ≠ x → dmat N m y = dmat N m0 y := by
  refine cells_safe hsc fun i j hi hj m hm => ⟨.inl rfl, ?_⟩
  have ha := dmat_rep.1 hA i j hi hj
  show (if big (m _) then Prog.ret () else Prog.wr _ _ _ : Prog (dty R) Unit).wp _ _ _ _
  rw [hm x, ha]
  by_cases c : big (a i j) = true
  · rw [if_pos c]
    exact ⟨by rw [hm x, ha]; simp [Spec.threshold, Spec.keep, c], fun y _ => hm y⟩
  · rw [if_neg c]
    refine ⟨rfl, ?_, fun y hy => ?_⟩
    · rw [Function.update_self]
      simp [Spec.threshold, Spec.keep, c]
    · rw [Function.update_of_ne (fun e => hy (DLoc.cell.inj e).1)]
      exact hm y

/-- **C77**, `bml_threshold_new` of a dense matrix, into a new matrix of zeros. -/
theorem C77_dense_threshold_new [Zero R] {N x z : Nat} {m0 : Mem (dty R)} {a : Spec.Mat R} {big : R → Bool}
    {sc : Sched} (hxz : x ≠ z) (hA : (dmat N m0 x).Represents N a)
    (hz : (dmat N m0 z).Represents N fun _ _ => 0) (hsc : IsSched 0 (N * N) sc) :
    (dThresholdNewTeam m0 x z big sc).Safe (dinb N) fun m =>
      (dmat N m z).Represents N (Spec.threshold big a) ∧ ∀ y, y ≠ z → dmat N m y = dmat N m0 y := by
  refine cells_safe hsc fun i j hi hj m hm => ⟨.inl rfl, ?_⟩
  have ha := dmat_rep.1 hA i j hi hj
  have hz := dmat_rep.1 hz i j hi hj
  show (if big (m _) then Prog.rd (.cell x (ROWMAJOR i j N N)) (fun w => Prog.wr (.cell z (ROWMAJOR i j N N)) w (.ret ())) else Prog.ret () : Prog (dty R) Unit).wp _ _ _ _
  rw [hm x, ha]
  by_cases c : big (a i j) = true
  · rw [if_pos c]
    refine ⟨.inl rfl, rfl, ?_, fun y hy => ?_⟩
    · rw [Function.update_self, hm x, ha]
      simp [Spec.threshold, Spec.keep, c]
    · rw [Function.update_of_ne (fun e => hy (DLoc.cell.inj e).1)]
      exact hm y
  · rw [if_neg c]
    exact ⟨by rw [hm z, hz]; simp [Spec.threshold, Spec.keep, c], fun y _ => hm y⟩

/-- **C77**, `bml_element_multiply_AB` of dense matrices; `C` may be `A` or `B`. -/
theorem C77_dense_element_multiply [Mul R] {N x y z : Nat} {m0 : Mem (dty R)} {a b : Spec.Mat R}
    {sc : Sched} (hA : (dmat N m0 x).Represents N a) (hB : (dmat N m0 y).Represents N b)
    (hsc : IsSched 0 (N * N) sc) :
    (dElemTeam m0 x y z sc).Safe (dinb N) fun m =>
      (dmat N m z).Represents N (fun i j => a i j * b i j) ∧ ∀ w, w ≠ z → dmat N m w = dmat N m0 w := by
  refine cells_safe hsc fun i j hi hj m hm => ⟨.inl rfl, .inl rfl, rfl, ?_, fun w hw => ?_⟩
  · rw [Function.update_self, hm x, hm y, dmat_rep.1 hA i j hi hj, dmat_rep.1 hB i j hi hj]
  · rw [Function.update_of_ne (fun e => hw (DLoc.cell.inj e).1)]
    exact hm w

/-- **C77**, `bml_add_identity` of a dense matrix. -/
theorem C77_dense_add_identity [Add R] {N x : Nat} {m0 : Mem (dty R)} {a : Spec.Mat R} {beta : R}
    {sc : Sched} (hA : (dmat N m0 x).Represents N a) (hsc : IsSched 0 N sc) :
    (dIdentityTeam N m0 x beta sc).Safe (dinb N) fun m =>
      (dmat N m x).Represents N (fun i j => if i = j then a i j + beta else a i j) ∧
        ∀ y, y ≠ x → dmat N m y = dmat N m0 y := by
  refine Team.Safe.mono (Team.direct (own := fun i l => i < N ∧ l = .cell x (ROWMAJOR i i N N))
    (ro := fun _ => False) (target := dtarget N m0 x fun i j => if i = j then a i j + beta else a i j)
    ?_ (fun _ _ h => h.elim) ?_ (fun _ h => h.elim) hsc.nodup ?_) ?_
  · rintro i j l hne ⟨hi, rfl⟩ ⟨hj, h⟩
    exact hne (rowmajor_inj hi hj (DLoc.cell.inj h).2).1
  · rintro i hi l ⟨h, rfl⟩
    exact decide_eq_true (rowmajor_lt h h)
  · intro i hi m hm
    have hlt := ((sched_mem hsc i).1 hi).2
    refine ⟨.inl ⟨hlt, rfl⟩, ⟨hlt, rfl⟩, ?_⟩
    rintro l ⟨_, rfl⟩
    rw [Function.update_self, dtarget_at hlt, if_pos rfl, hm, dmat_rep.1 hA i i hlt hlt]
    rintro j hj ⟨h, e⟩
    exact hj (rowmajor_inj hlt h (DLoc.cell.inj e).2).1.symm
  · rintro m ⟨h1, h2⟩
    refine ⟨dmat_rep.2 fun i j hi hj => ?_, fun y hy => dmat_ext fun p => h2 _ ?_⟩
    · by_cases c : i = j
      · subst c
        rw [h1 i ((sched_mem hsc _).2 ⟨Nat.zero_le _, hi⟩) _ ⟨hi, rfl⟩, dtarget_at hj]
      · rw [h2, if_neg c]
        · exact dmat_rep.1 hA i j hi hj
        · rintro k _ ⟨hk, e⟩
          obtain ⟨h3, h4⟩ := rowmajor_inj hj hk (DLoc.cell.inj e).2
          exact c (h3.trans h4.symm)
    · rintro i _ ⟨_, e⟩
      exact hy (DLoc.cell.inj e).1

/-- **C77**, `bml_transpose_new` of a dense matrix. -/
theorem C77_dense_transpose_new {N x z : Nat} {m0 : Mem (dty R)} {a : Spec.Mat R} {sc : Sched} (hxz : x ≠ z)
    (hA : (dmat N m0 x).Represents N a) (hsc : IsSched 0 N sc) :
    (dTransposeNewTeam N m0 x z sc).Safe (dinb N) fun m =>
      (dmat N m z).Represents N (Spec.transpose a) ∧ ∀ y, y ≠ z → dmat N m y = dmat N m0 y := by
  refine Team.Safe.mono (Team.direct (own := fun i l => ∃ j, j < N ∧ l = .cell z (ROWMAJOR i j N N))
    (ro := fun l => ∃ p, p < N * N ∧ l = .cell x p) (target := dtarget N m0 z (Spec.transpose a))
    ?_ ?_ ?_ ?_ hsc.nodup ?_) ?_
  · rintro i i' l hne ⟨j, hj, rfl⟩ ⟨j', hj', e⟩
    exact hne (rowmajor_inj hj hj' (DLoc.cell.inj e).2).1
  · rintro i l ⟨p, _, rfl⟩ ⟨j, _, e⟩
    exact hxz (DLoc.cell.inj e).1
  · rintro i hi l ⟨j, hj, rfl⟩
    exact decide_eq_true (rowmajor_lt ((sched_mem hsc i).1 hi).2 hj)
  · rintro l ⟨p, hp, rfl⟩
    exact decide_eq_true hp
  · intro i hi m hm
    have hlt := ((sched_mem hsc i).1 hi).2
    refine Prog.wp_mono (Prog.wp_own (loop_target (own := fun j l => j < N ∧ l = .cell z (ROWMAJOR i j N N))
      (ro := fun l => ∃ p, p < N * N ∧ l = .cell x p) (target := dtarget N m0 z (Spec.transpose a)) ?_ N ?_)
      ?_ fun l h => .inr h) ?_
    · rintro j j' l hne ⟨hj, rfl⟩ ⟨hj', e⟩
      exact hne (rowmajor_inj hj hj' (DLoc.cell.inj e).2).2
    · intro j hj m' hm'
      refine ⟨.inr ⟨_, rowmajor_lt hj hlt, rfl⟩, ⟨hj, rfl⟩, ?_⟩
      rintro l ⟨_, rfl⟩
      rw [Function.update_self, dtarget_at hj, hm' _ (fun _ _ h => hxz (DLoc.cell.inj h.2).1),
        hm _ (fun _ _ ⟨_, _, e⟩ => hxz (DLoc.cell.inj e).1)]
      exact dmat_rep.1 hA j i hj hlt
    · rintro l ⟨j, _, hj, e⟩
      exact ⟨j, hj, e⟩
    · rintro _ m' h l ⟨j, hj, e⟩
      exact h j hj l ⟨hj, e⟩
  · rintro m ⟨h1, h2⟩
    refine ⟨dmat_rep.2 fun i j hi hj => ?_, fun y hy => dmat_ext fun p => h2 _ ?_⟩
    · rw [h1 i ((sched_mem hsc _).2 ⟨Nat.zero_le _, hi⟩) _ ⟨j, hj, rfl⟩, dtarget_at hj]
    · rintro i _ ⟨_, _, e⟩
      exact hy (DLoc.cell.inj e).1

/-- Loops over the pairs of cells `(i, j)` and `(j, i)`. -/
private theorem pairs_safe {N x : Nat} {m0 : Mem (dty R)} {a b : Spec.Mat R} {sc : Sched}
    (hA : (dmat N m0 x).Represents N a) (hsc : IsSched 0 (N - 1) sc) (hdiag : ∀ i, i < N → b i i = a i i)
    {f : Nat → Nat → Prog (dty R) Unit}
    (hf : ∀ i j, i < j → j < N → ∀ m : Mem (dty R), m (.cell x (ROWMAJOR i j N N)) = a i j →
      m (.cell x (ROWMAJOR j i N N)) = a j i →
      (f i j).wp (fun l => l = .cell x (ROWMAJOR i j N N) ∨ l = .cell x (ROWMAJOR j i N N)) (fun _ => False) m
        fun _ m' => m' (.cell x (ROWMAJOR i j N N)) = b i j ∧ m' (.cell x (ROWMAJOR j i N N)) = b j i) :
    (Team.start m0 () sc fun i _ => Prog.loop (N - (i + 1)) () fun k _ => f i (i + 1 + k)).Safe (dinb N) fun m =>
      (dmat N m x).Represents N b ∧ ∀ y, y ≠ x → dmat N m y = dmat N m0 y := by
  have hA := dmat_rep.1 hA
  refine Team.Safe.mono (Team.direct (own := pairOwn N x) (ro := fun _ => False) (target := dtarget N m0 x b)
    pair_disjoint (fun _ _ h => h.elim) ?_ (fun _ h => h.elim) hsc.nodup ?_) ?_
  · rintro i _ l ⟨j, h1, h2, rfl | rfl⟩
    · exact decide_eq_true (rowmajor_lt (by omega) h2)
    · exact decide_eq_true (rowmajor_lt h2 (by omega))
  · intro i hi m hm
    have hlt := ((sched_mem hsc i).1 hi).2
    refine Prog.wp_mono (Prog.wp_own (loop_target
      (own := fun k l => i + 1 + k < N ∧ (l = .cell x (ROWMAJOR i (i + 1 + k) N N) ∨
        l = .cell x (ROWMAJOR (i + 1 + k) i N N)))
      (ro := fun _ => False) (target := dtarget N m0 x b) ?_ (N - (i + 1)) ?_) ?_ fun l h => h.elim) ?_
    · rintro k k' l hne ⟨hk, h⟩ ⟨hk', h'⟩
      rcases h with rfl | rfl <;> rcases h' with h' | h' <;>
        · have := rowmajor_inj (by omega) (by omega) (DLoc.cell.inj h').2
          omega
    · intro k hk m' hm'
      have hj : i + 1 + k < N := by omega
      have own_i : ∀ l, (l = .cell x (ROWMAJOR i (i + 1 + k) N N) ∨ l = .cell x (ROWMAJOR (i + 1 + k) i N N)) →
          m' l = m0 l := by
        intro l hl
        rw [hm', hm]
        · intro i' hi'
          exact pair_disjoint i i' l (Ne.symm hi') ⟨i + 1 + k, by omega, hj, hl⟩
        · rintro k' hk' ⟨h, hl'⟩
          rcases hl with rfl | rfl <;> rcases hl' with h' | h' <;>
            · have := rowmajor_inj (by omega) (by omega) (DLoc.cell.inj h').2
              omega
      refine Prog.wp_mono (Prog.wp_own (hf i (i + 1 + k) (by omega) hj m'
        ((own_i _ (.inl rfl)).trans (hA _ _ (by omega) hj))
        ((own_i _ (.inr rfl)).trans (hA _ _ hj (by omega)))) (fun l hl => ⟨hj, hl⟩) fun l h => h.elim) ?_
      rintro _ m'' ⟨h1, h2⟩ l ⟨_, rfl | rfl⟩
      · rw [h1, dtarget_at hj]
      · rw [h2, dtarget_at (by omega)]
    · rintro l ⟨k, hk, hj, h⟩
      exact ⟨i + 1 + k, by omega, hj, h⟩
    · rintro _ m' h l ⟨j, h1, h2, hl⟩
      have e : i + 1 + (j - (i + 1)) = j := by omega
      exact h (j - (i + 1)) (by omega) l (by rw [e]; exact ⟨h2, hl⟩)
  · rintro m ⟨h1, h2⟩
    refine ⟨dmat_rep.2 fun i j hi hj => ?_, fun y hy => dmat_ext fun p => h2 _ ?_⟩
    · rcases Nat.lt_trichotomy i j with c | c | c
      · rw [h1 i ((sched_mem hsc _).2 ⟨Nat.zero_le _, by omega⟩) _ ⟨j, c, hj, .inl rfl⟩, dtarget_at hj]
      · subst c
        rw [h2, hdiag i hi]
        · exact hA i i hi hi
        · rintro k _ ⟨j, h3, h4, h | h⟩ <;>
            · have := rowmajor_inj (by omega) (by omega) (DLoc.cell.inj h).2
              omega
      · rw [h1 j ((sched_mem hsc _).2 ⟨Nat.zero_le _, by omega⟩) _ ⟨i, c, hi, .inr rfl⟩, dtarget_at hj]
    · rintro i _ ⟨_, _, _, e | e⟩ <;> exact hy (DLoc.cell.inj e).1

/-- **C77**, `bml_transpose` of a dense matrix, in place. -/
theorem C77_dense_transpose {N x : Nat} {m0 : Mem (dty R)} {a : Spec.Mat R} {sc : Sched}
    (hA : (dmat N m0 x).Represents N a) (hsc : IsSched 0 (N - 1) sc) :
    (dTransposeTeam N m0 x sc).Safe (dinb N) fun m =>
      (dmat N m x).Represents N (Spec.transpose a) ∧ ∀ y, y ≠ x → dmat N m y = dmat N m0 y := by
  refine pairs_safe (b := Spec.transpose a) (f := fun i j => if i ≠ j then Prog.rd (ty := dty R) (.cell x (ROWMAJOR i j N N)) fun tmp =>
    Prog.rd (ty := dty R) (.cell x (ROWMAJOR j i N N)) fun v => Prog.wr (ty := dty R) (.cell x (ROWMAJOR i j N N)) v
      (Prog.wr (ty := dty R) (.cell x (ROWMAJOR j i N N)) tmp (.ret ())) else .ret ()) hA hsc (fun _ _ => rfl) ?_
  intro i j hij hj m h1 h2
  rw [if_pos (by omega)]
  have hne : (DLoc.cell x (ROWMAJOR i j N N)) ≠ .cell x (ROWMAJOR j i N N) := fun e => by
    have := rowmajor_inj (by omega) (by omega) (DLoc.cell.inj e).2
    omega
  refine ⟨.inl (.inl rfl), .inl (.inr rfl), .inl rfl, .inr rfl, ?_, ?_⟩
  · rw [Function.update_of_ne hne, Function.update_self]
    exact h2
  · rw [Function.update_self]
    exact h1

/-- **C77**, `bml_adjungate_triangle` and `bml_transpose_triangle` of a dense matrix: `'u'` copies the
upper triangle to the lower, `'l'` the lower to the upper. -/
theorem C77_dense_triangle {N x : Nat} {m0 : Mem (dty R)} {a : Spec.Mat R} {conj : R → R} {upper : Bool}
    {sc : Sched} (hA : (dmat N m0 x).Represents N a) (hsc : IsSched 0 (N - 1) sc) :
    (dTriangleTeam N m0 x conj upper sc).Safe (dinb N) fun m =>
      (dmat N m x).Represents N (fun i j =>
        if (if upper then j < i else i < j) then conj (a j i) else a i j) ∧
      ∀ y, y ≠ x → dmat N m y = dmat N m0 y := by
  refine pairs_safe (f := fun i j => if upper then Prog.rd (ty := dty R) (.cell x (ROWMAJOR i j N N)) fun v =>
      Prog.wr (ty := dty R) (.cell x (ROWMAJOR j i N N)) (conj v) (.ret ())
    else Prog.rd (ty := dty R) (.cell x (ROWMAJOR j i N N)) fun v =>
      Prog.wr (ty := dty R) (.cell x (ROWMAJOR i j N N)) (conj v) (.ret ())) hA hsc ?_ ?_
  · intro i _
    cases upper <;> simp
  intro i j hij hj m h1 h2
  have hne : (DLoc.cell x (ROWMAJOR i j N N)) ≠ .cell x (ROWMAJOR j i N N) := fun e => by
    have := rowmajor_inj (by omega) (by omega) (DLoc.cell.inj e).2
    omega
  have hji : ¬ j < i := by omega
  cases upper
  · refine ⟨.inl (.inr rfl), .inl rfl, ?_, ?_⟩
    · rw [Function.update_self, h2]
      simp [hij]
    · rw [Function.update_of_ne hne.symm, h2]
      simp [hji]
  · refine ⟨.inl (.inl rfl), .inr rfl, ?_, ?_⟩
    · rw [Function.update_of_ne hne, h1]
      simp [hji]
    · rw [Function.update_self, h1]
      simp [hij]

/-- Three `3 × 3` matrices: `1 … 9`, `10 … 18`, zeros. -/
private def dex : Mem (dty Int) :=
  dmemOf (fun x => ⟨3, ⟨9, fun p => if x = 2 then 0 else (9 * x + p + 1 : Int)⟩⟩) 0

private theorem dex_A : (dmat 3 dex 0).Represents 3 fun i j => (3 * i + j + 1 : Int) :=
  dmat_rep.2 fun i j _ _ => by show (9 * (0 : Nat) + (ROWMAJOR i j 3 3 : Nat) + 1 : Int) = _; unfold ROWMAJOR; push_cast; ring

private theorem dex_B : (dmat 3 dex 1).Represents 3 fun i j => (3 * i + j + 10 : Int) :=
  dmat_rep.2 fun i j _ _ => by show (9 * (1 : Nat) + (ROWMAJOR i j 3 3 : Nat) + 1 : Int) = _; unfold ROWMAJOR; push_cast; ring

private theorem dex_C : (dmat 3 dex 2).Represents 3 fun _ _ => (0 : Int) := dmat_rep.2 fun _ _ _ _ => rfl

example : (dThresholdTeam dex 0 (fun v => decide (3 < v)) [(0, 4), (1, 3), (1, 0), (0, 5), (2, 1), (0, 2), (2, 6),
    (2, 8), (0, 7)]).Safe (dinb 3) fun m => (dmat 3 m 0).Represents 3 (Spec.threshold (fun v => decide (3 < v))
      fun i j => (3 * i + j + 1 : Int)) ∧ ∀ y, y ≠ 0 → dmat 3 m y = dmat 3 dex y :=
  C77_dense_threshold dex_A (by unfold IsSched; decide)

example : (dThresholdNewTeam dex 0 2 (fun v => decide (3 < v)) [(0, 4), (1, 3), (1, 0), (0, 5), (2, 1), (0, 2), (2, 6),
    (2, 8), (0, 7)]).Safe (dinb 3) fun m => (dmat 3 m 2).Represents 3 (Spec.threshold (fun v => decide (3 < v))
      fun i j => (3 * i + j + 1 : Int)) ∧ ∀ y, y ≠ 2 → dmat 3 m y = dmat 3 dex y :=
  C77_dense_threshold_new (by decide) dex_A dex_C (by unfold IsSched; decide)

example : (dElemTeam dex 0 1 0 [(0, 4), (1, 3), (1, 0), (0, 5), (2, 1), (0, 2), (2, 6),
    (2, 8), (0, 7)]).Safe (dinb 3) fun m => (dmat 3 m 0).Represents 3
      (fun i j => (3 * i + j + 1 : Int) * (3 * i + j + 10)) ∧ ∀ y, y ≠ 0 → dmat 3 m y = dmat 3 dex y :=
  C77_dense_element_multiply dex_A dex_B (by unfold IsSched; decide)

example : (dIdentityTeam 3 dex 0 5 [(0, 2), (1, 0), (0, 1)]).Safe (dinb 3) fun m => (dmat 3 m 0).Represents 3
      (fun i j => if i = j then (3 * i + j + 1 : Int) + 5 else 3 * i + j + 1) ∧
        ∀ y, y ≠ 0 → dmat 3 m y = dmat 3 dex y :=
  C77_dense_add_identity dex_A (by unfold IsSched; decide)

example : (dTransposeNewTeam 3 dex 0 1 [(0, 2), (1, 0), (0, 1)]).Safe (dinb 3) fun m => (dmat 3 m 1).Represents 3
      (Spec.transpose fun i j => (3 * i + j + 1 : Int)) ∧ ∀ y, y ≠ 1 → dmat 3 m y = dmat 3 dex y :=
  C77_dense_transpose_new (by decide) dex_A (by unfold IsSched; decide)

example : (dTransposeTeam 3 dex 0 [(1, 1), (0, 0)]).Safe (dinb 3) fun m => (dmat 3 m 0).Represents 3
      (Spec.transpose fun i j => (3 * i + j + 1 : Int)) ∧ ∀ y, y ≠ 0 → dmat 3 m y = dmat 3 dex y :=
  C77_dense_transpose dex_A (by unfold IsSched; decide)

example : (dTriangleTeam 3 dex 0 (fun v => -v) true [(1, 1), (0, 0)]).Safe (dinb 3) fun m =>
      (dmat 3 m 0).Represents 3 (fun i j => if (if true then j < i else i < j) then -(3 * j + i + 1 : Int)
        else 3 * i + j + 1) ∧ ∀ y, y ≠ 0 → dmat 3 m y = dmat 3 dex y :=
  C77_dense_triangle dex_A (by unfold IsSched; decide)

private theorem fnorm2_start [Mul R] [Add R] [Sub R] [Zero R] {m0 : Mem (dty R)} {x y : Nat} {sc : Sched} {t i : Nat}
    (h : (t, i) ∈ sc) : ∃ i0 k, (dFnorm2Team m0 x y sc).prog t = Prog.rd (ty := dty R) (.cell x i0) fun v =>
      Prog.rd (ty := dty R) (.cell y i0) fun w => Prog.wr (ty := dty R) .temp ((v : R) - (w : R)) k := by
  have h : i ∈ Team.its sc t := Team.mem_its.2 h
  show ∃ i0 k, Prog.forL (Team.its sc t) (0 : R) (dFnorm2Body x y) = _
  cases e : Team.its sc t with
  | nil => rw [e] at h; cases h
  | cons i0 is => exact ⟨i0, _, rfl⟩

/-- **C77 fails** for `bml_fnorm2` of dense matrices: `temp` is shared.  Whatever the matrices, as soon as
two threads have something to do there is an order in which both are about to store in `temp`. -/
theorem C77_dense_fnorm2_races [Mul R] [Add R] [Sub R] [Zero R] {m0 : Mem (dty R)} {x y : Nat} {sc : Sched}
    {t t' i i' : Nat} (hne : t ≠ t') (h : (t, i) ∈ sc) (h' : (t', i') ∈ sc) :
    ∃ cs, ((dFnorm2Team m0 x y sc).exec cs).Racing := by
  obtain ⟨i0, k, e⟩ := fnorm2_start (m0 := m0) (x := x) (y := y) h
  obtain ⟨i0', k', e'⟩ := fnorm2_start (m0 := m0) (x := x) (y := y) h'
  refine ⟨[t, t, t', t'], t, t', true, true, .temp, hne, ?_, ?_, .inl rfl⟩
  all_goals
    simp only [Team.exec, Team.step, e, e', upd_same, upd_ne _ _ hne, upd_ne _ _ hne.symm, Prog.next]

example : ∃ cs, ((dFnorm2Team dex 0 1 [(0, 0), (1, 1)]).exec cs).Racing :=
  C77_dense_fnorm2_races (t := 0) (t' := 1) (i := 0) (i' := 1) (by decide) (by decide) (by decide)

/-- With two threads and an unlucky order the two partial sums are both of the second difference: the
result depends on the order.  (The matrices are `1, 2, …` and `1, 5, …`, so the sum should be 9.) -/
theorem C77_dense_fnorm2_wrong_witness :
    ∃ cs : List Nat,
      let s := (dFnorm2Team (dmemOf (fun x => ⟨3, ⟨9, fun p => if x = 0 then (p + 1 : Int) else 4 * p + 1⟩⟩) 0)
        0 1 [(0, 0), (1, 1)]).exec cs
      (∃ r, s.prog 0 = .ret r ∧ r = 9) ∧ ∃ r, s.prog 1 = .ret r ∧ r = 9 :=
  ⟨[0, 0, 0, 1, 1, 1, 0, 0, 1, 1], ⟨9, rfl, rfl⟩, ⟨9, rfl, rfl⟩⟩

end Props
end Bml
