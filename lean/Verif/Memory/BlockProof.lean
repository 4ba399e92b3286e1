import Verif.Memory.Block

/-!
# Proofs about the memory of block-ELLPACK calls
-/

namespace Bml
namespace Memory

variable [Allocator] {E : Prop}

/-- Row `i` has at least `n i` pointers. -/
def BlkO.Room (A : BlkO) (n : Nat → Nat) : Prop := ∀ (k : Nat) (r : BRow), A.rows[k]? = some r → n k ≤ r.ptrs.length

/-- The pointers not in use are `NULL`. -/
def BlkO.Clean (A : BlkO) : Prop := ∀ (k : Nat) (r : BRow), A.rows[k]? = some r → r.Clean

omit [Allocator] in
theorem sumRows_zero : ∀ (i : Nat) (L : List BRow), sumRows (fun _ _ => 0) i L = 0
  | _, [] => rfl
  | i, _ :: L => by simp [sumRows, sumRows_zero (i + 1) L]

omit [Allocator] in
theorem sumRows_congr {f g : Nat → BRow → Nat} : ∀ (L : List BRow) (i : Nat),
    (∀ (k : Nat) (r : BRow), L[k]? = some r → f (i + k) r = g (i + k) r) → sumRows f i L = sumRows g i L
  | [], _, _ => rfl
  | r :: L, i, h => by
    show f i r + _ = g i r + _
    have h1 : sumRows f (i + 1) L = sumRows g (i + 1) L := sumRows_congr L (i + 1) fun k s hs => by
      have := h (k + 1) s (by simpa using hs)
      rwa [show i + (k + 1) = i + 1 + k by omega] at this
    have h2 : f i r = g i r := h 0 r rfl
    rw [h1, h2]

omit [Allocator] in
theorem rows_owns {f : Nat → BRow → M BRow} (lose : Nat → BRow → Nat) (post : Nat → BRow → BRow → Prop)
    (A : BlkO) (h : ∀ (k : Nat) (r : BRow), A.rows[k]? = some r → Owns E r.blocks (f k r) fun r' P =>
      ∃ X, P = r'.blocks + X ∧ X.card = lose k r ∧ post k r r') :
    Owns E A.blocks (eachRow f 0 A.rows) fun L' P =>
      ∃ X, P = ({ A with rows := L' } : BlkO).blocks + X ∧ X.card = sumRows lose 0 A.rows ∧
        L'.length = A.rows.length ∧ ∀ (k : Nat) (r r' : BRow), A.rows[k]? = some r → L'[k]? = some r' → post k r r' := by
  have h1 := eachRow_owns (f := f) (lose := lose) (post := post) A.rows 0 (E := E) (by simpa using h)
  refine Owns.frame h1 (R := A.frame) (by simp only [BlkO.blocks]; abel) ?_
  rintro L' _ ⟨X, rfl, hx, hl, hp⟩
  exact ⟨X, by simp only [BlkO.blocks, BlkO.frame]; abel, hx, hl, by simpa using hp⟩

theorem newBlk_owns (N NB MB : Nat) : Owns E 0 (newBlk N NB MB) fun A P =>
    P = A.blocks ∧ A.rows = List.replicate NB ⟨[], List.replicate MB none⟩ ∧ A.N = N ∧ A.MB = MB := by
  unfold newBlk
  refine Owns.malloc fun a => Owns.malloc fun b => Owns.malloc fun c => Owns.malloc fun d =>
    Owns.malloc fun e => Owns.pure ⟨?_, rfl, rfl, rfl⟩
  have : ∀ n, total BRow.blocks (List.replicate n ⟨[], List.replicate MB none⟩) = 0 := by
    intro n
    induction n with
    | zero => rfl
    | succ n ih => simp [List.replicate_succ, total, BRow.blocks, ih]
  simp only [BlkO.blocks, BlkO.frame, this]
  abel

omit [Allocator] in
theorem newBlk_row {NB MB k : Nat} {r : BRow}
    (h : (List.replicate NB (⟨[], List.replicate MB none⟩ : BRow))[k]? = some r) :
    r = ⟨[], List.replicate MB none⟩ ∧ k < NB := by
  rw [List.getElem?_replicate] at h
  split at h
  · exact ⟨by simpa using h.symm, by assumption⟩
  · simp at h

/-- Filling the rows of a matrix without submatrices. -/
theorem fill_owns (A : BlkO) (n : Nat → Nat) (hr : A.Room n) :
    Owns E A.blocks (eachRow (fun i r => freshRow (n i) r.ptrs) 0 A.rows) fun L' P =>
      ∃ X, P = ({ A with rows := L' } : BlkO).blocks + X ∧
        X.card = sumRows (fun _ r => r.used.length) 0 A.rows ∧
        L'.length = A.rows.length ∧ ∀ (k : Nat) (r r' : BRow), A.rows[k]? = some r → L'[k]? = some r' →
          r'.used.length = n k ∧ r'.rest = r.ptrs.drop (n k) := by
  refine rows_owns (fun _ r => r.used.length) (fun k r r' => r'.used.length = n k ∧
    r'.rest = r.ptrs.drop (n k)) A fun k r h => ?_
  refine Owns.frame (freshRow_owns (n k) r.ptrs (hr k r h)) (R := r.blocks) (by abel) ?_
  rintro r' _ ⟨rfl, e1, e2⟩
  exact ⟨r.blocks, rfl, total_single_card _, e2, e1⟩

theorem fullBlk_owns (N NB MB : Nat) (n : Nat → Nat) (h : ∀ i < NB, n i ≤ MB) :
    Owns E 0 (fullBlk N NB MB n) fun A P => P = A.blocks ∧ A.rows.length = NB ∧ A.Clean ∧
      (∀ (k : Nat) (r : BRow), A.rows[k]? = some r → r.used.length = n k) ∧ A.N = N ∧ A.MB = MB := by
  unfold fullBlk
  refine Owns.bind (newBlk_owns N NB MB) ?_
  rintro A _ ⟨rfl, e, eN, eM⟩
  refine Owns.bind (fill_owns A n ?_) ?_
  · intro k r hk
    rw [e] at hk
    obtain ⟨rfl, hlt⟩ := newBlk_row hk
    simpa [BRow.ptrs] using h k hlt
  rintro L' _ ⟨X, rfl, hx, hl, hp⟩
  have hX : X = 0 := by
    rw [← Multiset.card_eq_zero, hx]
    refine (sumRows_congr (g := fun _ _ => 0) A.rows 0 fun k r hk => ?_).trans (sumRows_zero 0 _)
    rw [e] at hk
    rw [(newBlk_row hk).1]
    rfl
  have hlen : L'.length = NB := by rw [hl, e, List.length_replicate]
  have hget : ∀ (k : Nat) (r' : BRow), L'[k]? = some r' → ∃ r, A.rows[k]? = some r ∧ r = ⟨[], List.replicate MB none⟩ := by
    intro k r' hk
    have hlt : k < L'.length := (List.getElem?_eq_some_iff.1 hk).1
    rw [hlen] at hlt
    refine ⟨_, ?_, rfl⟩
    rw [e, List.getElem?_replicate, if_pos hlt]
  refine Owns.pure ⟨by rw [hX, add_zero], hlen, ?_, ?_, eN, eM⟩
  · intro k r' hk q hq
    obtain ⟨r, h1, rfl⟩ := hget k r' hk
    rw [(hp k _ r' h1 hk).2] at hq
    have := List.mem_of_mem_drop hq
    simp [BRow.ptrs] at this
    exact this.2
  · intro k r' hk
    obtain ⟨r, h1, rfl⟩ := hget k r' hk
    exact (hp k _ r' h1 hk).1

omit [Allocator] in
theorem freeRow_owns (r : BRow) : Owns E r.blocks (freeAll r.used) fun _ P => P = 0 :=
  Owns.freeAll_last (P' := 0) (by simp [BRow.blocks]) rfl

omit [Allocator] in
theorem BlkO.deallocate_owns (A : BlkO) : Owns E A.blocks A.deallocate fun _ P => P = 0 := by
  unfold BlkO.deallocate
  refine Owns.useR (R := total BRow.blocks A.rows) rfl ?_
  refine Owns.call (Owns.each freeRow_owns A.rows) (R := A.frame) (by simp only [BlkO.blocks]; abel) ?_
  rintro _ _ rfl
  exact Owns.freeAll_last (P' := 0) (by simp only [BlkO.frame, total]; abel) rfl

omit [Allocator] in
theorem BlkO.clear_owns (A : BlkO) : Owns E A.blocks A.clear fun A' P =>
    P = A'.blocks ∧ A'.rows.length = A.rows.length ∧
      (∀ (k : Nat) (r r' : BRow), A.rows[k]? = some r → A'.rows[k]? = some r' → r' = ⟨[], r.ptrs⟩) ∧ A'.frame = A.frame := by
  unfold BlkO.clear
  refine Owns.useR (R := total BRow.blocks A.rows) rfl ?_
  refine Owns.bind (rows_owns (fun _ _ => 0) (fun _ r r' => r' = ⟨[], r.ptrs⟩) A ?_) ?_
  · intro k r _
    refine Owns.bind (freeRow_owns r) ?_
    rintro _ _ rfl
    exact Owns.pure ⟨0, rfl, rfl, rfl⟩
  rintro L' _ ⟨X, rfl, hx, hl, hp⟩
  rw [sumRows_zero, Multiset.card_eq_zero] at hx
  exact Owns.pure ⟨by rw [hx, add_zero], hl, hp, rfl⟩

theorem BlkO.newFrom_owns (A : BlkO) (N NB MB : Nat) (n : Nat → Nat) (h : ∀ i < NB, n i ≤ MB) :
    Owns E A.blocks (A.newFrom N NB MB n) fun B P => P = A.blocks + B.blocks ∧ B.Clean := by
  unfold BlkO.newFrom
  refine Owns.useR (R := 0) (by abel) ?_
  refine Owns.call (fullBlk_owns N NB MB n h) (R := A.blocks) (by abel) ?_
  rintro B _ ⟨rfl, _, hc, _⟩
  refine Owns.useR (R := 0) (by abel) ?_
  exact Owns.pure ⟨by abel, hc⟩

/-- What storing `n i` submatrices in row `i` over the old ones loses. -/
def BlkO.shrink (A : BlkO) (n : Nat → Nat) : Nat := sumRows (fun i r => r.used.length - n i) 0 A.rows

/-- The submatrices of a matrix. -/
def BlkO.count (A : BlkO) : Nat := sumRows (fun _ r => r.used.length) 0 A.rows

theorem store_owns (A : BlkO) (n : Nat → Nat) (hr : A.Room n) (hc : A.Clean) :
    Owns E A.blocks (eachRow (fun i r => storeRow (n i) r.ptrs) 0 A.rows) fun L' P =>
      ∃ X, P = ({ A with rows := L' } : BlkO).blocks + X ∧ X.card = A.shrink n ∧
        L'.length = A.rows.length ∧ ∀ (k : Nat) (r r' : BRow), A.rows[k]? = some r → L'[k]? = some r' →
          r'.used.length = n k ∧ (r.used.length ≤ n k → r'.Clean) := by
  refine rows_owns (fun i r => r.used.length - n i) (fun k r r' => r'.used.length = n k ∧
    (r.used.length ≤ n k → r'.Clean)) A fun k r h => ?_
  refine Owns.mono (storeRow_owns (n k) r.used r.rest (hr k r h) (hc k r h)) ?_
  rintro r' P ⟨X, e, hx, hu, hcl⟩
  exact ⟨X, e, hx, hu, hcl⟩

omit [Allocator] in
theorem write_owns (A : BlkO) (n : Nat → Nat) (hn : ∀ (k : Nat) (r : BRow), A.rows[k]? = some r → n k ≤ r.used.length) :
    Owns E A.blocks (eachRow (fun i r => writeRow (n i) r.ptrs) 0 A.rows) fun L' P =>
      ∃ X, P = ({ A with rows := L' } : BlkO).blocks + X ∧ X.card = A.shrink n := by
  refine Owns.mono (rows_owns (fun i r => r.used.length - n i) (fun _ _ _ => True) A fun k r h => ?_) ?_
  · refine Owns.mono (writeRow_owns (n k) r.used r.rest (hn k r h)) ?_
    rintro r' P ⟨X, e, hx, _⟩
    exact ⟨X, e, hx, trivial⟩
  · rintro L' P ⟨X, e, hx, _⟩
    exact ⟨X, e, hx⟩

theorem BlkO.copy_owns (A B : BlkO) (n : Nat → Nat) (hr : B.Room n) (hc : B.Clean) :
    Owns E (A.blocks + B.blocks) (A.copy B n) fun B' P =>
      ∃ X, P = A.blocks + B'.blocks + X ∧ X.card = B.shrink n := by
  unfold BlkO.copy
  refine Owns.useR (R := total BRow.blocks B.rows) (by simp only [BlkO.blocks]; abel) ?_
  refine Owns.call (store_owns B n hr hc) (R := A.blocks) (by abel) ?_
  rintro L' _ ⟨X, rfl, hx, _⟩
  exact Owns.pure ⟨X, by abel, hx⟩

theorem BlkO.array_owns (A : BlkO) : Owns E A.blocks A.array fun p P => P = A.blocks + {p} := by
  unfold BlkO.array
  refine Owns.useR (R := 0) (by abel) ?_
  refine Owns.malloc fun p => Owns.malloc fun q => ?_
  refine Owns.useR (R := 0) (by abel) ?_
  refine Owns.free (P' := A.blocks + {p}) (by abel) ?_
  exact Owns.pure rfl

theorem BlkO.gershgorin_owns (A : BlkO) : Owns E A.blocks A.gershgorin fun p P => P = A.blocks + {p} := by
  unfold BlkO.gershgorin
  refine Owns.malloc fun p => Owns.malloc fun q => Owns.malloc fun r => ?_
  refine Owns.useR (R := 0) (by abel) ?_
  refine Owns.free (P' := A.blocks + {p} + {q}) (by abel) ?_
  refine Owns.free (P' := A.blocks + {p}) (by abel) ?_
  exact Owns.pure rfl

theorem timesMalloc_owns (n : Nat) : Owns E 0 (times malloc n) fun L P =>
    P = total (fun p => {p}) L ∧ L.length = n :=
  Owns.times (Owns.malloc_last fun p => by abel) n

theorem BlkO.sums_owns (A B : BlkO) :
    Owns E (A.blocks + B.blocks) (A.sums B) fun _ P => P = A.blocks + B.blocks := by
  unfold BlkO.sums
  refine Owns.call (timesMalloc_owns A.rows.length) (R := A.blocks + B.blocks) (by abel) ?_
  rintro L _ ⟨rfl, _⟩
  refine Owns.use ?_ ?_
  · refine le_trans (Multiset.union_le (Multiset.le_add_right _ _) (Multiset.le_add_left _ _))
      (Multiset.le_add_left (A.blocks + B.blocks) _)
  exact Owns.freeAll_last (P' := A.blocks + B.blocks) rfl rfl

theorem importBlk_owns (N NB MB : Nat) (a : Blk) (n : Nat → Nat) (h : ∀ i < NB, n i ≤ MB) :
    Owns E {a} (importBlk N NB MB a n) fun B P => P = {a} + B.blocks := by
  unfold importBlk
  refine Owns.call (newBlk_owns N NB MB) (R := {a}) (by abel) ?_
  rintro A _ ⟨rfl, e, _, _⟩
  refine Owns.malloc fun o => ?_
  refine Owns.useR (R := A.blocks) (by abel) ?_
  refine Owns.call (fill_owns A n ?_) (R := {o} + {a}) (by abel) ?_
  · intro k r hk
    rw [e] at hk
    obtain ⟨rfl, hlt⟩ := newBlk_row hk
    simpa [BRow.ptrs] using h k hlt
  rintro L' _ ⟨X, rfl, hx, _⟩
  have hX : X = 0 := by
    rw [← Multiset.card_eq_zero, hx]
    refine (sumRows_congr (g := fun _ _ => 0) A.rows 0 fun k r hk => ?_).trans (sumRows_zero 0 _)
    rw [e] at hk
    rw [(newBlk_row hk).1]
    rfl
  subst hX
  refine Owns.free (P' := ({ A with rows := L' } : BlkO).blocks + {a}) (by abel) ?_
  exact Owns.pure (by abel)

omit [Allocator] in
theorem total_filter (c : Blk → Bool) : ∀ L : List Blk, total (fun p => ({p} : Multiset Blk)) L =
    total (fun p => {p}) (L.filter fun p => !c p) + total (fun p => {p}) (L.filter c)
  | [] => by simp [total]
  | p :: L => by
    rw [List.filter_cons, List.filter_cons]
    cases h : c p <;> simp only [Bool.not_false, Bool.not_true, if_true, total, Bool.false_eq_true, if_false] <;>
      rw [total_filter c L] <;> abel

omit [Allocator] in
theorem BlkO.threshold_owns (keep : Nat → Blk → Bool) (A : BlkO) (hc : A.Clean) :
    Owns E A.blocks (A.threshold keep) fun A' P => P = A'.blocks ∧ A'.Clean := by
  unfold BlkO.threshold
  refine Owns.useR (R := 0) (by abel) ?_
  refine Owns.bind (rows_owns (fun _ _ => 0) (fun _ r r' => r.Clean → r'.Clean) A ?_) ?_
  · intro k r hk
    refine Owns.freeAll (P' := total (fun p => {p}) (r.used.filter (keep k)))
      (total_filter (keep k) r.used) ?_
    refine Owns.pure ⟨0, by simp [BRow.blocks], rfl, fun hr => ?_⟩
    intro q hq
    rcases List.mem_append.1 hq with h | h
    · simp at h
      exact h.2
    · exact hr q h
  rintro L' _ ⟨X, rfl, hx, hl, hp⟩
  rw [sumRows_zero, Multiset.card_eq_zero] at hx
  refine Owns.pure ⟨by rw [hx, add_zero], fun k r' hk => ?_⟩
  have hlt : k < A.rows.length := by
    rw [← hl]
    exact (List.getElem?_eq_some_iff.1 hk).1
  have h1 : A.rows[k]? = some A.rows[k] := List.getElem?_eq_getElem hlt
  exact hp k _ r' h1 hk (hc k _ h1)

theorem BlkO.add_owns (A B : BlkO) (n : Nat → Nat) (hr : A.Room n) (hc : A.Clean) :
    Owns E (A.blocks + B.blocks) (A.add B n) fun A' P =>
      ∃ X, P = A'.blocks + B.blocks + X ∧ X.card = A.shrink n := by
  unfold BlkO.add
  refine Owns.malloc fun s => ?_
  refine Owns.useR (R := 0) (by abel) ?_
  refine Owns.call (store_owns A n hr hc) (R := B.blocks + {s}) (by abel) ?_
  rintro L' _ ⟨X, rfl, hx, _⟩
  refine Owns.free (P' := ({ A with rows := L' } : BlkO).blocks + B.blocks + X) (by abel) ?_
  exact Owns.pure ⟨X, rfl, hx⟩

theorem BlkO.addNorm_owns (A B : BlkO) (n : Nat → Nat)
    (hn : ∀ (k : Nat) (r : BRow), A.rows[k]? = some r → n k ≤ r.used.length) :
    Owns E (A.blocks + B.blocks) (A.addNorm B n) fun A' P =>
      ∃ X, P = A'.blocks + B.blocks + X ∧ X.card = 2 + A.shrink n := by
  unfold BlkO.addNorm
  refine Owns.malloc fun x => Owns.malloc fun y => ?_
  refine Owns.useR (R := 0) (by abel) ?_
  refine Owns.call (write_owns A n hn) (R := B.blocks + {x} + {y}) (by abel) ?_
  rintro L' _ ⟨X, rfl, hx⟩
  refine Owns.pure ⟨X + {x} + {y}, by abel, ?_⟩
  simp only [Multiset.card_add, Multiset.card_singleton, hx]
  omega

theorem BlkO.addIdentity_owns (A : BlkO) (one n : Nat → Nat) (h1 : ∀ i < A.rows.length, one i ≤ A.MB)
    (hr : A.Room n) (hc : A.Clean) :
    Owns E A.blocks (A.addIdentity one n) fun A' P => ∃ X, P = A'.blocks + X ∧ X.card = A.shrink n := by
  unfold BlkO.addIdentity
  refine Owns.call (fullBlk_owns A.N A.rows.length A.MB one h1) (R := A.blocks) (by abel) ?_
  rintro Id _ ⟨rfl, _⟩
  refine Owns.call (A.add_owns Id n hr hc) (R := 0) (by abel) ?_
  rintro A' _ ⟨X, rfl, hx⟩
  refine Owns.call Id.deallocate_owns (R := A'.blocks + X) (by abel) ?_
  rintro _ _ rfl
  exact Owns.pure ⟨X, by abel, hx⟩

/-- The rows of a product. -/
theorem product_owns (C : BlkO) (n : Nat → Nat) (hr : C.Room n) :
    Owns E C.blocks (eachRow (fun i r => do
      let right ← malloc
      let r' ← freshRow (n i) r.ptrs
      free right
      pure r') 0 C.rows) fun L' P =>
      ∃ X, P = ({ C with rows := L' } : BlkO).blocks + X ∧ X.card = C.count := by
  refine Owns.mono (rows_owns (fun _ r => r.used.length) (fun _ _ _ => True) C fun k r h => ?_) ?_
  · refine Owns.malloc fun t => ?_
    refine Owns.call (freshRow_owns (n k) r.ptrs (hr k r h)) (R := {t} + r.blocks) (by abel) ?_
    rintro r' _ ⟨rfl, _, _⟩
    refine Owns.free (P' := r'.blocks + r.blocks) (by abel) ?_
    exact Owns.pure ⟨r.blocks, rfl, total_single_card _, trivial⟩
  · rintro L' P ⟨X, e, hx, _⟩
    exact ⟨X, e, hx⟩

omit [Allocator] in
theorem count_zero (A : BlkO) (h : ∀ (k : Nat) (r : BRow), A.rows[k]? = some r → r.used = []) : A.count = 0 := by
  unfold BlkO.count
  refine (sumRows_congr (g := fun _ _ => 0) A.rows 0 fun k r hk => ?_).trans (sumRows_zero 0 _)
  rw [h k r hk]
  rfl

theorem BlkO.x2_owns (X X2 : BlkO) (n : Nat → Nat) (hr : X2.Room n) :
    Owns E (X.blocks + X2.blocks) (X.x2 X2 n) fun r P => P = X.blocks + r.2.blocks + {r.1} := by
  unfold BlkO.x2
  refine Owns.call X2.clear_owns (R := X.blocks) (by abel) ?_
  rintro Y _ ⟨rfl, hl, hp, _⟩
  have hrow : ∀ (k : Nat) (r' : BRow), Y.rows[k]? = some r' → ∃ r, X2.rows[k]? = some r ∧ r' = ⟨[], r.ptrs⟩ := by
    intro k r' hk
    have hlt : k < X2.rows.length := by
      rw [← hl]
      exact (List.getElem?_eq_some_iff.1 hk).1
    have h1 : X2.rows[k]? = some X2.rows[k] := List.getElem?_eq_getElem hlt
    exact ⟨_, h1, hp k _ r' h1 hk⟩
  refine Owns.malloc fun t => Owns.malloc fun s => ?_
  refine Owns.useR (R := Y.blocks) (by abel) ?_
  refine Owns.call (product_owns Y n ?_) (R := X.blocks + {t} + {s}) (by abel) ?_
  · intro k r' hk
    obtain ⟨r, h1, rfl⟩ := hrow k r' hk
    have := hr k r h1
    simpa [BRow.ptrs] using this
  rintro L' _ ⟨Z, rfl, hz⟩
  rw [count_zero Y fun k r' hk => by obtain ⟨r, _, rfl⟩ := hrow k r' hk; rfl,
    Multiset.card_eq_zero] at hz
  subst hz
  refine Owns.free (P' := ({ Y with rows := L' } : BlkO).blocks + X.blocks + {t}) (by abel) ?_
  exact Owns.pure (by abel)

theorem BlkO.multAB_owns (S : Multiset Blk) (A B C : BlkO) (n : Nat → Nat) (hS : A.blocks ∪ B.blocks ≤ S)
    (hr : C.Room n) :
    Owns E (S + C.blocks) (A.multAB B C n) fun C' P => ∃ X, P = S + C'.blocks + X ∧ X.card = C.count := by
  unfold BlkO.multAB
  refine Owns.malloc fun s => ?_
  refine Owns.use (le_trans hS (le_trans (Multiset.le_add_right S C.blocks) (Multiset.le_add_left _ _))) ?_
  refine Owns.useR (R := S + total BRow.blocks C.rows) (by simp only [BlkO.blocks]; abel) ?_
  refine Owns.call (product_owns C n hr) (R := S + {s}) (by abel) ?_
  rintro L' _ ⟨X, rfl, hx⟩
  refine Owns.free (P' := S + ({ C with rows := L' } : BlkO).blocks + X) (by abel) ?_
  exact Owns.pure ⟨X, rfl, hx⟩

/-- What a product loses. -/
def multLoss (square plain : Bool) (C : BlkO) (m : Nat → Nat) : Nat :=
  (if square then 1 else 0) + if square && plain then 0 else C.shrink m

theorem BlkO.multiply_owns (square plain : Bool) (A B C : BlkO) (n m : Nat → Nat)
    (hs : square = true → A = B) (hn : ∀ i < C.rows.length, n i ≤ C.MB) (hrn : C.Room n) (hrm : C.Room m)
    (hc : C.Clean) :
    Owns E (ops square A.blocks B.blocks + C.blocks) (A.multiply square plain B C n m) fun C' P =>
      ∃ X, P = ops square A.blocks B.blocks + C'.blocks + X ∧ X.card = multLoss square plain C m := by
  have huni : A.blocks ∪ B.blocks ≤ ops square A.blocks B.blocks := by
    cases square
    · exact Multiset.union_le (Multiset.le_add_right _ _) (Multiset.le_add_left _ _)
    · rw [← hs rfl]; simp [ops]
  unfold BlkO.multiply
  split
  · next h =>
    have hsq : square = true := by cases square <;> simp_all
    have hpl : plain = true := by cases plain <;> simp_all
    subst hsq; subst hpl
    refine Owns.bind (A.x2_owns C n hrn) ?_
    rintro ⟨t, C'⟩ _ rfl
    exact Owns.pure ⟨{t}, rfl, rfl⟩
  · next h =>
    refine Owns.useR (R := ops square A.blocks B.blocks + total BRow.blocks C.rows)
      (by simp only [BlkO.blocks]; abel) ?_
    refine Owns.call (newBlk_owns C.N C.rows.length C.MB) (R := ops square A.blocks B.blocks + C.blocks)
      (by abel) ?_
    rintro A2 _ ⟨rfl, e, _, _⟩
    have hroom : A2.Room n := by
      intro k r hk
      rw [e] at hk
      obtain ⟨rfl, hlt⟩ := newBlk_row hk
      simpa [BRow.ptrs] using hn k hlt
    have hcount : A2.count = 0 := count_zero A2 fun k r hk => by
      rw [e] at hk
      rw [(newBlk_row hk).1]
    refine Owns.bind (Q1 := fun A2' P => ∃ X, P = ops square A.blocks B.blocks + C.blocks + A2'.blocks + X ∧
      X.card = if square then 1 else 0) ?_ ?_
    · cases square
      · refine Owns.frame (A.multAB_owns (ops false A.blocks B.blocks) B A2 n huni hroom) (R := C.blocks)
          (by abel) ?_
        rintro A2' _ ⟨X, rfl, hx⟩
        exact ⟨X, by abel, by rw [hx, hcount]; rfl⟩
      · refine Owns.call (A.x2_owns A2 n hroom) (R := C.blocks)
          (by simp only [ops, if_true]; abel) ?_
        rintro ⟨t, A2'⟩ _ rfl
        exact Owns.pure ⟨{t}, by simp only [ops, if_true]; abel, rfl⟩
    rintro A2' _ ⟨X, rfl, hx⟩
    refine Owns.call (C.add_owns A2' m hrm hc) (R := ops square A.blocks B.blocks + X) (by abel) ?_
    rintro C' _ ⟨Y, rfl, hy⟩
    refine Owns.call A2'.deallocate_owns (R := ops square A.blocks B.blocks + C'.blocks + X + Y)
      (by abel) ?_
    rintro _ _ rfl
    refine Owns.pure ⟨X + Y, by abel, ?_⟩
    rw [Multiset.card_add, hx, hy, multLoss, if_neg h]

theorem BlkO.adjustAB_owns (A B C : BlkO) (n : Nat → Nat)
    (hn : ∀ (k : Nat) (r : BRow), C.rows[k]? = some r → n k ≤ r.used.length) :
    Owns E (A.blocks + B.blocks + C.blocks) (A.adjustAB B C n) fun C' P =>
      ∃ X, P = A.blocks + B.blocks + C'.blocks + X ∧ X.card = A.rows.length + C.shrink n := by
  unfold BlkO.adjustAB
  refine Owns.call (timesMalloc_owns A.rows.length) (R := A.blocks + B.blocks + C.blocks) (by abel) ?_
  rintro x _ ⟨rfl, hxl⟩
  refine Owns.use ?_ ?_
  · refine le_trans (Multiset.union_le (Multiset.le_add_right _ _) (Multiset.le_add_left _ _)) ?_
    exact le_trans (Multiset.le_add_right (A.blocks + B.blocks) C.blocks) (Multiset.le_add_left _ _)
  refine Owns.useR (R := A.blocks + B.blocks + total BRow.blocks C.rows)
    (by simp only [BlkO.blocks]; abel) ?_
  refine Owns.call (write_owns C n hn) (R := total (fun p => {p}) x + (A.blocks + B.blocks)) (by abel) ?_
  rintro L' _ ⟨X, rfl, hx⟩
  refine Owns.pure ⟨total (fun p => {p}) x + X, by abel, ?_⟩
  rw [Multiset.card_add, total_single_card, hx, hxl]

theorem BlkO.inverse_owns (A : BlkO) (n : Nat → Nat) (hn : ∀ i < A.rows.length, n i ≤ A.MB) :
    Owns E A.blocks (A.inverse n) fun B P => P = A.blocks + B.blocks := by
  unfold BlkO.inverse
  refine Owns.bind A.array_owns ?_
  rintro a _ rfl
  refine Owns.call (newDense_owns A.N) (R := A.blocks + {a}) (by abel) ?_
  rintro D _ ⟨rfl, _⟩
  refine Owns.useR (R := A.blocks) (by abel) ?_
  refine Owns.free (P' := D.blocks + A.blocks) (by abel) ?_
  refine Owns.call D.inverseInplace_owns (R := A.blocks) (by abel) ?_
  rintro _ _ rfl
  refine Owns.call D.array_owns (R := A.blocks) (by abel) ?_
  rintro b _ rfl
  refine Owns.call D.deallocate_owns (R := A.blocks + {b}) (by abel) ?_
  rintro _ _ rfl
  refine Owns.call (importBlk_owns A.N A.rows.length A.MB b n hn) (R := A.blocks) (by abel) ?_
  rintro B _ rfl
  refine Owns.free (P' := B.blocks + A.blocks) (by abel) ?_
  exact Owns.pure (by abel)

theorem BlkO.diagonalize_owns (cplx dc : Bool) (A V : BlkO) (n : Nat → Nat)
    (hn : ∀ i < A.rows.length, n i ≤ A.MB) (hr : V.Room n) (hc : V.Clean) :
    Owns E (A.blocks + V.blocks) (A.diagonalize cplx dc V n) fun V' P =>
      ∃ X, P = A.blocks + V'.blocks + X ∧ X.card = V.shrink n := by
  unfold BlkO.diagonalize
  refine Owns.call A.array_owns (R := V.blocks) (by abel) ?_
  rintro a _ rfl
  refine Owns.call (newDense_owns A.N) (R := A.blocks + V.blocks + {a}) (by abel) ?_
  rintro D _ ⟨rfl, _⟩
  refine Owns.useR (R := A.blocks + V.blocks) (by abel) ?_
  refine Owns.free (P' := D.blocks + A.blocks + V.blocks) (by abel) ?_
  refine Owns.call (newDense_owns A.N) (R := D.blocks + A.blocks + V.blocks) (by abel) ?_
  rintro W _ ⟨rfl, _⟩
  refine Owns.call (D.diagonalize_owns cplx dc W) (R := A.blocks + V.blocks) (by abel) ?_
  rintro _ _ rfl
  refine Owns.call D.deallocate_owns (R := W.blocks + A.blocks + V.blocks) (by abel) ?_
  rintro _ _ rfl
  refine Owns.call W.array_owns (R := A.blocks + V.blocks) (by abel) ?_
  rintro w _ rfl
  refine Owns.call W.deallocate_owns (R := A.blocks + V.blocks + {w}) (by abel) ?_
  rintro _ _ rfl
  refine Owns.call (importBlk_owns A.N A.rows.length A.MB w n hn) (R := A.blocks + V.blocks) (by abel) ?_
  rintro T _ rfl
  refine Owns.free (P' := T.blocks + A.blocks + V.blocks) (by abel) ?_
  refine Owns.call (T.copy_owns V n hr hc) (R := A.blocks) (by abel) ?_
  rintro V' _ ⟨X, rfl, hx⟩
  refine Owns.call T.deallocate_owns (R := A.blocks + V'.blocks + X) (by abel) ?_
  rintro _ _ rfl
  exact Owns.pure ⟨X, by abel, hx⟩

end Memory
end Bml
