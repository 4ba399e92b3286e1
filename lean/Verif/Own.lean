import Verif.Basic

/-!
# Loops that fill disjoint parts of an array

One proof rule for the many loops whose iterations write to different cells: iteration `i` owns
the cells `own i`, no cell has two owners, and iteration `i` leaves `v p` in the cells `p` it owns,
provided that it finds its own cells, and the cells that nobody owns, as they were initially.
-/

namespace Bml

universe u

variable {α : Type u} {E : Prop}

theorem loop_eq_seq {σ : Type u} (n : Nat) (s : σ) (f : Nat → σ → Res σ) :
    loop n s f = forList (seqSched 0 n) s (fun ti s => f ti.2 s) := by
  induction n with
  | zero => rfl
  | succ n ih =>
    have : seqSched 0 (n + 1) = seqSched 0 n ++ [(0, n)] := by
      simp [seqSched, List.range_succ]
    rw [this, forList_append, loop_succ, ih]
    cases forList (seqSched 0 n) s (fun ti s => f ti.2 s) with
    | ok a => simp only [Res.bind_ok, forList_cons, forList_nil]; cases f n a <;> rfl
    | error => rfl
    | ub => rfl

/-- What a loop over `lo ≤ i < hi` leaves behind. -/
structure Filled (lo hi : Nat) (own : Nat → Nat → Prop) (v : Nat → α) (x0 x : Arr α) : Prop where
  size : x.size = x0.size
  val : ∀ i p, lo ≤ i → i < hi → own i p → x.get p = v p
  rest : ∀ p, (∀ i, lo ≤ i → i < hi → ¬ own i p) → x.get p = x0.get p

/-- What one iteration leaves behind. -/
structure Filled1 (own : Nat → Prop) (v : Nat → α) (x0 x : Arr α) : Prop where
  size : x.size = x0.size
  val : ∀ p, own p → x.get p = v p
  rest : ∀ p, ¬ own p → x.get p = x0.get p

theorem wp_fill {lo hi : Nat} {sc : Sched} (hsc : IsSched lo hi sc) {x0 : Arr α}
    {f : Nat × Nat → Arr α → Res (Arr α)} (own : Nat → Nat → Prop) (v : Nat → α)
    (hdis : ∀ i j p, lo ≤ i → i < hi → lo ≤ j → j < hi → own i p → own j p → i = j)
    (hf : ∀ t i x, lo ≤ i → i < hi → x.size = x0.size → (∀ p, own i p → x.get p = x0.get p) →
      (∀ p, (∀ i, lo ≤ i → i < hi → ¬ own i p) → x.get p = x0.get p) →
      (f (t, i) x).wp E (Filled1 (own i) v x)) :
    (forList sc x0 f).wp E (Filled lo hi own v x0) := by
  refine Res.wp_mono (wp_rows hsc
    (fun x : Arr α => x.size = x0.size ∧
      ∀ p, (∀ i, lo ≤ i → i < hi → ¬ own i p) → x.get p = x0.get p)
    (fun i x => ∀ p, own i p → x.get p = x0.get p) (fun i x => ∀ p, own i p → x.get p = v p)
    ⟨rfl, fun _ _ => rfl⟩ (fun _ _ _ _ _ => rfl) ?_) ?_
  · rintro t i x h1 h2 ⟨g1, g2⟩ hP
    refine Res.wp_mono (hf t i x h1 h2 g1 hP g2) ?_
    rintro x' ⟨k1, k2, k3⟩
    refine ⟨⟨k1.trans g1, fun p hp => by rw [k3 p (hp i h1 h2), g2 p hp]⟩, k2, ?_⟩
    intro j h3 h4 hne
    constructor
    · intro hP' p hp
      rw [k3 p (fun hq => hne (hdis j i p h3 h4 h1 h2 hp hq)), hP' p hp]
    · intro hP' p hp
      rw [k3 p (fun hq => hne (hdis j i p h3 h4 h1 h2 hp hq)), hP' p hp]
  · rintro x ⟨⟨g1, g2⟩, hq⟩
    exact ⟨g1, fun i p h1 h2 hp => hq i h1 h2 p hp, g2⟩

theorem wp_fillLoop {n : Nat} {x0 : Arr α} {f : Nat → Arr α → Res (Arr α)}
    (own : Nat → Nat → Prop) (v : Nat → α)
    (hdis : ∀ i j p, i < n → j < n → own i p → own j p → i = j)
    (hf : ∀ i x, i < n → x.size = x0.size → (∀ p, own i p → x.get p = x0.get p) →
      (∀ p, (∀ i, i < n → ¬ own i p) → x.get p = x0.get p) →
      (f i x).wp E (Filled1 (own i) v x)) :
    (loop n x0 f).wp E (Filled1 (fun p => ∃ i, i < n ∧ own i p) v x0) := by
  rw [loop_eq_seq]
  refine Res.wp_mono (wp_fill (isSched_seq 0 n) own v
    (fun i j p _ h2 _ h4 => hdis i j p h2 h4) ?_) ?_
  · intro t i x _ h2 h3 h4 h5
    exact hf i x h2 h3 h4 (fun p hp => h5 p (fun i _ hi => hp i hi))
  · rintro x ⟨g1, g2, g3⟩
    refine ⟨g1, ?_, ?_⟩
    · rintro p ⟨i, hi, hp⟩; exact g2 i p (Nat.zero_le i) hi hp
    · intro p hp; exact g3 p (fun i _ hi h => hp ⟨i, hi, h⟩)

theorem wp_fillFrom {lo hi : Nat} {x0 : Arr α} {f : Nat → Arr α → Res (Arr α)}
    (own : Nat → Nat → Prop) (v : Nat → α)
    (hdis : ∀ i j p, lo ≤ i → i < hi → lo ≤ j → j < hi → own i p → own j p → i = j)
    (hf : ∀ i x, lo ≤ i → i < hi → x.size = x0.size → (∀ p, own i p → x.get p = x0.get p) →
      (∀ p, (∀ i, lo ≤ i → i < hi → ¬ own i p) → x.get p = x0.get p) →
      (f i x).wp E (Filled1 (own i) v x)) :
    (loopFrom lo hi x0 f).wp E (Filled1 (fun p => ∃ i, lo ≤ i ∧ i < hi ∧ own i p) v x0) := by
  unfold loopFrom
  refine Res.wp_mono (wp_fillLoop (fun k => own (lo + k)) v ?_ ?_) ?_
  · intro i j p h1 h2 h3 h4
    have := hdis (lo + i) (lo + j) p (by omega) (by omega) (by omega) (by omega) h3 h4
    omega
  · intro i x h1 h2 h3 h4
    refine hf (lo + i) x (by omega) (by omega) h2 h3 (fun p hp => h4 p (fun k hk => hp _ ?_ ?_))
    · omega
    · omega
  · rintro x ⟨g1, g2, g3⟩
    refine ⟨g1, ?_, ?_⟩
    · rintro p ⟨i, h1, h2, hp⟩
      refine g2 p ⟨i - lo, by omega, ?_⟩
      rw [Nat.add_sub_cancel' h1]; exact hp
    · intro p hp
      exact g3 p (fun ⟨i, h1, h2⟩ => hp ⟨lo + i, by omega, by omega, h2⟩)

/-- One write. -/
theorem filled1_write {x : Arr α} {q : Nat} {w : α} {v : Nat → α} (h : v q = w) :
    Filled1 (fun p => p = q) v x ⟨x.size, upd x.get q w⟩ := by
  refine ⟨rfl, ?_, ?_⟩
  · rintro p rfl; simp [h]
  · intro p hp; simp [upd, hp]

/-- Cells of row `i` of an `n`-column array. -/
theorem row_inj {i i' j j' n : Nat} (hj : j < n) (hj' : j' < n) (h : i * n + j = i' * n + j') :
    i = i' ∧ j = j' := addr_inj hj hj' h

/-! ## Sums -/

theorem wp_sumSched {R : Type u} [AddCommMonoid R] {lo hi : Nat} {sc : Sched}
    (hsc : IsSched lo hi sc) {f : Nat × Nat → R → Res R} (g : Nat → R) (s : R)
    (hf : ∀ t i acc, lo ≤ i → i < hi → f (t, i) acc = .ok (acc + g i)) :
    forList sc s f = .ok (s + ∑ i ∈ Finset.Ico lo hi, g i) := by
  rw [← hsc.sum_eq g]
  have hmem : ∀ e ∈ sc, lo ≤ e.2 ∧ e.2 < hi :=
    fun e he => (hsc.mem e.2).1 (List.mem_map.2 ⟨e, he, rfl⟩)
  clear hsc
  induction sc generalizing s with
  | nil => simp
  | cons e sc ih =>
    obtain ⟨t, i⟩ := e
    have hi := hmem (t, i) (by simp)
    rw [forList_cons, hf t i s hi.1 hi.2, Res.bind_ok,
      ih _ (fun e he => hmem e (by simp [he]))]
    simp [add_assoc]

/-- Sum over the cells of whole rows. -/
theorem sum_cells {R : Type u} [AddCommMonoid R] (g : Nat → R) (n : Nat) {lo hi : Nat}
    (h : lo ≤ hi) : ∑ p ∈ Finset.Ico (lo * n) (hi * n), g p =
      ∑ i ∈ Finset.Ico lo hi, ∑ j ∈ Finset.range n, g (i * n + j) := by
  induction hi, h using Nat.le_induction with
  | base => simp
  | succ hi h ih =>
    have h1 : lo * n ≤ hi * n := Nat.mul_le_mul_right n h
    have h2 : hi * n ≤ (hi + 1) * n := Nat.mul_le_mul_right n (Nat.le_succ hi)
    rw [← Finset.sum_Ico_consecutive g h1 h2, ih, Finset.sum_Ico_succ_top h]
    congr 1
    rw [Finset.sum_Ico_eq_sum_range]
    have : (hi + 1) * n - hi * n = n := by rw [Nat.add_mul, Nat.one_mul]; omega
    rw [this]

end Bml
