import Verif.Dist.Async
import Verif.Dist.Grid

/-!
# The distributed product

`bml_multiply` for 2-D distributed matrices: Cannon's algorithm.
-/

namespace Bml.Dist

section Model

variable {τ R : Type}

/-- The local matrix functions that the distributed product calls, of one of the storage formats.
The first arguments (rank and number of the call) let them depend on thread schedules and
uninitialised memory.  `copyNew` is `bml_copy_new`; `deliver buf A` is what `bml_mpi_irecv(buf)` and
`bml_mpi_irecv_complete(buf)` leave when the other side calls `bml_mpi_send(A)`; `multiply` is
`bml_multiply` with the threshold fixed. -/
structure Ops (τ R : Type) where
  copyNew : Nat → Nat → τ → Res τ
  deliver : τ → τ → Res τ
  multiply : Nat → Nat → τ → τ → τ → R → R → Res τ

/-- The local variables of `bml_multiply_distributed2d`: `Atmp1`, `Atmp2`, `Btmp1`, `Btmp2` and
`C->matrix`. -/
structure Buf (τ : Type) where
  a1 : τ
  a2 : τ
  b1 : τ
  b2 : τ
  c : τ

variable [One R]

/-- The receiving side of a phase and, after the second exchange of a round, the local product:
lines 51-53, 61-63, 67, 83-85, 92-94, 98. -/
def cannonFin (O : Ops τ R) (α β : R) (k r : Nat) (s : Res (Buf τ)) (m : Option (Res τ)) :
    Res (Buf τ) := do
  let s ← s
  let s ← match m with
    | none => pure s
    | some m => do
      let m ← m
      if k % 2 = 0 then do
        let x ← O.deliver s.a2 m
        pure { s with a2 := x }
      else do
        let x ← O.deliver s.b2 m
        pure { s with b2 := x }
  if k % 2 = 0 then pure s
  else do
    let c ← O.multiply r (k / 2) s.a2 s.b2 s.c α (if k = 1 then β else 1)
    pure { s with c := c }

/-- Lines 72-77: the swap of the pointers at the start of a round after the first. -/
def cannonPre (k : Nat) (s : Res (Buf τ)) : Res (Buf τ) :=
  if 2 ≤ k ∧ k % 2 = 0 then s >>= fun s => pure { s with a1 := s.a2, a2 := s.a1, b1 := s.b2, b2 := s.b1 }
  else s

/-- The shift of phase `k`: `(dimension, displacement)`. Lines 50, 60, 82, 91. -/
def cannonShift (p k r : Nat) : Nat × Int :=
  if k = 0 then (1, -1 * (prow p r : Int))
  else if k = 1 then (0, -1 * (pcol p r : Int))
  else if k % 2 = 0 then (1, -1)
  else (0, -1)

/-- `bml_multiply_distributed2d`,
`src/C-interface/distributed2d/bml_multiply_distributed2d_typed.c` 30-105, as a program in phases:
phase `0` aligns `A`, phase `1` aligns `B` and multiplies, phases `2k` and `2k+1` are round `k` of the
loop.  `A->comm` and `B->comm` are the same communicator. -/
def cannonNet (O : Ops τ R) (p : Nat) (α β : R) : Net (Res (Buf τ)) (Res τ) where
  P := p * p
  K := 2 * p
  part k r := if k = 0 then decide (0 < prow p r) else if k = 1 then decide (0 < pcol p r) else true
  src k r := (cartShift p (cannonShift p k r).1 (cannonShift p k r).2 r).1
  dst k r := (cartShift p (cannonShift p k r).1 (cannonShift p k r).2 r).2
  pre k _ s := cannonPre k s
  pay k _ s := s >>= fun s => pure (if k % 2 = 0 then s.a1 else s.b1)
  fin k r s m := cannonFin O α β k r s m

omit [One R] in
/-- Lines 40-44: the local copies. -/
def cannonStart (O : Ops τ R) (A B C : Nat → τ) (r : Nat) : Res (Buf τ) := do
  let a1 ← O.copyNew r 0 (A r)
  let a2 ← O.copyNew r 1 (A r)
  let b1 ← O.copyNew r 2 (B r)
  let b2 ← O.copyNew r 3 (B r)
  pure ⟨a1, a2, b1, b2, C r⟩

theorem cannonShift_row (p k r : Nat) (h : k % 2 = 0) :
    cannonShift p k r = (1, -((if k = 0 then prow p r else 1 : Nat) : Int)) := by
  unfold cannonShift
  by_cases h0 : k = 0
  · simp [h0]
  · have : k ≠ 1 := by omega
    simp [h0, this, h]

theorem cannonShift_col (p k r : Nat) (h : k % 2 ≠ 0) :
    cannonShift p k r = (0, -((if k = 1 then pcol p r else 1 : Nat) : Int)) := by
  unfold cannonShift
  have h0 : k ≠ 0 := by omega
  by_cases h1 : k = 1
  · simp [h1]
  · simp [h0, h1, h]

theorem cannon_src_row (O : Ops τ R) (p : Nat) (α β : R) {k : Nat} (r : Nat) (h : k % 2 = 0) :
    (cannonNet O p α β).src k r =
      rankOf p (prow p r) ((pcol p r + (if k = 0 then prow p r else 1)) % p) := by
  show (cartShift p (cannonShift p k r).1 (cannonShift p k r).2 r).1 = _
  rw [cannonShift_row p k r h]
  unfold cartShift
  rw [if_neg (by simp), neg_neg, ring_add]

theorem cannon_src_col (O : Ops τ R) (p : Nat) (α β : R) {k : Nat} (r : Nat) (h : k % 2 ≠ 0) :
    (cannonNet O p α β).src k r =
      rankOf p ((prow p r + (if k = 1 then pcol p r else 1)) % p) (pcol p r) := by
  show (cartShift p (cannonShift p k r).1 (cannonShift p k r).2 r).1 = _
  rw [cannonShift_col p k r h]
  unfold cartShift
  rw [if_pos (by simp), neg_neg, ring_add]

theorem cannon_matched (O : Ops τ R) (p : Nat) (α β : R) : (cannonNet O p α β).Matched := by
  have pos : ∀ r, r < (cannonNet O p α β).P → 0 < p := by
    intro r hr
    refine Nat.pos_of_ne_zero ?_
    rintro rfl
    exact absurd hr (Nat.not_lt_zero _)
  have part_row : ∀ k r, k % 2 = 0 → (cannonNet O p α β).part k r =
      if k = 0 then decide (0 < prow p r) else true := by
    intro k r h
    show (if k = 0 then _ else if k = 1 then _ else _) = _
    by_cases h0 : k = 0
    · simp [h0]
    · have : k ≠ 1 := by omega
      simp [h0, this]
  have part_col : ∀ k r, k % 2 ≠ 0 → (cannonNet O p α β).part k r =
      if k = 1 then decide (0 < pcol p r) else true := by
    intro k r h
    show (if k = 0 then _ else if k = 1 then _ else _) = _
    have h0 : k ≠ 0 := by omega
    simp [h0]
  constructor
  · intro k r hk hr hp
    have hpos := pos r hr
    have hrow := prow_lt hr
    have hcol := pcol_lt hr
    by_cases h : k % 2 = 0
    · have e1 := cannon_src_row O p α β r h
      have hlt := Nat.mod_lt (pcol p r + (if k = 0 then prow p r else 1)) hpos
      rw [e1]
      refine ⟨rankOf_lt hrow hlt, ?_, ?_⟩
      · rw [part_row _ _ h, prow_rankOf hlt, ← part_row k r h]; exact hp
      · show (cartShift p (cannonShift p k _).1 (cannonShift p k _).2 _).2 = _
        rw [cannonShift_row p k _ h]
        unfold cartShift
        rw [if_neg (by simp)]
        simp only [prow_rankOf hlt, pcol_rankOf hlt]
        rw [← ring_add, ring_ring hpos hcol, rankOf_coords]
    · have e1 := cannon_src_col O p α β r h
      have hlt := Nat.mod_lt (prow p r + (if k = 1 then pcol p r else 1)) hpos
      rw [e1]
      refine ⟨rankOf_lt hlt hcol, ?_, ?_⟩
      · rw [part_col _ _ h, pcol_rankOf hcol, ← part_col k r h]; exact hp
      · show (cartShift p (cannonShift p k _).1 (cannonShift p k _).2 _).2 = _
        rw [cannonShift_col p k _ h]
        unfold cartShift
        rw [if_pos (by simp)]
        simp only [prow_rankOf hcol, pcol_rankOf hcol]
        rw [← ring_add, ring_ring hpos hrow, rankOf_coords]
  · intro k r hk hr hp
    have hpos := pos r hr
    have hrow := prow_lt hr
    have hcol := pcol_lt hr
    by_cases h : k % 2 = 0
    · have e1 : (cannonNet O p α β).dst k r = rankOf p (prow p r)
          (ring p (pcol p r) (-((if k = 0 then prow p r else 1 : Nat) : Int))) := by
        show (cartShift p (cannonShift p k _).1 (cannonShift p k _).2 _).2 = _
        rw [cannonShift_row p k _ h]
        unfold cartShift
        rw [if_neg (by simp)]
      have hlt := ring_lt hpos (pcol p r) (-((if k = 0 then prow p r else 1 : Nat) : Int))
      rw [e1]
      refine ⟨rankOf_lt hrow hlt, ?_, ?_⟩
      · rw [part_row _ _ h, prow_rankOf hlt, ← part_row k r h]; exact hp
      · rw [cannon_src_row O p α β _ h]
        simp only [prow_rankOf hlt, pcol_rankOf hlt]
        rw [← ring_add, ring_ring' hpos hcol, rankOf_coords]
    · have e1 : (cannonNet O p α β).dst k r = rankOf p
          (ring p (prow p r) (-((if k = 1 then pcol p r else 1 : Nat) : Int))) (pcol p r) := by
        show (cartShift p (cannonShift p k _).1 (cannonShift p k _).2 _).2 = _
        rw [cannonShift_col p k _ h]
        unfold cartShift
        rw [if_pos (by simp)]
      have hlt := ring_lt hpos (prow p r) (-((if k = 1 then pcol p r else 1 : Nat) : Int))
      rw [e1]
      refine ⟨rankOf_lt hlt hcol, ?_, ?_⟩
      · rw [part_col _ _ h, pcol_rankOf hcol, ← part_col k r h]; exact hp
      · rw [cannon_src_col O p α β _ h]
        simp only [prow_rankOf hcol, pcol_rankOf hcol]
        rw [← ring_add, ring_ring' hpos hrow, rankOf_coords]

end Model

section Correct

variable {τ R : Type} [CommRing R]

/-- The local functions are right for `n × n` matrices: a local matrix `A` with `Rep A a` holds the
matrix `a`, copies and messages keep it, and `multiply` is exact; `RepC` may ask more of the matrix
that receives the product. -/
structure Ops.Exact (O : Ops τ R) (n : Nat) (Rep RepC : τ → Spec.Mat R → Prop) : Prop where
  congr : ∀ {A a b}, RepC A a → Spec.Eq n a b → RepC A b
  copy : ∀ r k {A a}, Rep A a → ∃ B, O.copyNew r k A = .ok B ∧ Rep B a
  deliver : ∀ {A B a b}, Rep A a → Rep B b → ∃ B', O.deliver B A = .ok B' ∧ Rep B' a
  multiply : ∀ r k {A B C a b c}, Rep A a → Rep B b → RepC C c → ∀ α β : R,
    ∃ C', O.multiply r k A B C α β = .ok C' ∧
      RepC C' (fun i j => α * Spec.mul n a b i j + β * c i j)

variable {O : Ops τ R} {n p : Nat} {Rep RepC : τ → Spec.Mat R → Prop} {a b c : Spec.Mat R} {α β : R}

/-- The local state of rank `(i,j)` before phase `2k+2`, that is after `k+1` products. -/
def AfterRound (Rep RepC : τ → Spec.Mat R → Prop) (p n : Nat) (a b c : Spec.Mat R) (α β : R) (k i j : Nat)
    (s : Res (Buf τ)) : Prop :=
  ∃ t x y, s = .ok t ∧ Rep t.a1 x ∧ Rep t.b1 y ∧ Rep t.a2 (tile n i ((i + j + k) % p) a) ∧
    Rep t.b2 (tile n ((i + j + k) % p) j b) ∧
    RepC t.c (fun r s => β * tile n i j c r s + α * ∑ l ∈ Finset.range (k + 1),
      Spec.mul n (tile n i ((i + j + l) % p) a) (tile n ((i + j + l) % p) j b) r s)

theorem cannonStart_ok (hO : O.Exact n Rep RepC) {A B C : Nat → τ} (hA : Holds Rep p n A a)
    (hB : Holds Rep p n B b) (hC : Holds RepC p n C c) {i j : Nat} (hi : i < p) (hj : j < p) :
    ∃ t, cannonStart O A B C (rankOf p i j) = .ok t ∧ Rep t.a1 (tile n i j a) ∧
      Rep t.a2 (tile n i j a) ∧ Rep t.b1 (tile n i j b) ∧ Rep t.b2 (tile n i j b) ∧
      RepC t.c (tile n i j c) := by
  obtain ⟨a1, e1, h1⟩ := hO.copy (rankOf p i j) 0 (hA i j hi hj)
  obtain ⟨a2, e2, h2⟩ := hO.copy (rankOf p i j) 1 (hA i j hi hj)
  obtain ⟨b1, e3, h3⟩ := hO.copy (rankOf p i j) 2 (hB i j hi hj)
  obtain ⟨b2, e4, h4⟩ := hO.copy (rankOf p i j) 3 (hB i j hi hj)
  refine ⟨⟨a1, a2, b1, b2, C (rankOf p i j)⟩, ?_, h1, h2, h3, h4, hC i j hi hj⟩
  unfold cannonStart
  rw [e1, Res.bind_ok, e2, Res.bind_ok, e3, Res.bind_ok, e4, Res.bind_ok]
  rfl

theorem cannon_round0 (hO : O.Exact n Rep RepC) {A B C : Nat → τ} (hA : Holds Rep p n A a)
    (hB : Holds Rep p n B b) (hC : Holds RepC p n C c) {i j : Nat} (hi : i < p) (hj : j < p) :
    AfterRound Rep RepC p n a b c α β 0 i j
      ((cannonNet O p α β).sync (cannonStart O A B C) 2 (rankOf p i j)) := by
  set net := cannonNet O p α β with hnet
  set s0 := cannonStart O A B C with hs0
  -- after the alignment of `A`
  have h1 : ∀ i j, i < p → j < p → ∃ t x, net.sync s0 1 (rankOf p i j) = .ok t ∧ Rep t.a1 x ∧
      Rep t.a2 (tile n i ((i + j) % p) a) ∧ Rep t.b1 (tile n i j b) ∧ Rep t.b2 (tile n i j b) ∧
      RepC t.c (tile n i j c) := by
    intro i j hi hj
    obtain ⟨t, et, g1, g2, g3, g4, g5⟩ := cannonStart_ok hO hA hB hC hi hj
    have hpart : net.part 0 (rankOf p i j) = decide (0 < i) := by
      show decide (0 < prow p (rankOf p i j)) = _
      rw [prow_rankOf hj]
    show ∃ t x, net.fin 0 _ (net.pre 0 _ (s0 (rankOf p i j))) (if net.part 0 (rankOf p i j) = true then
      some (net.pay 0 _ (net.pre 0 _ (s0 (net.src 0 (rankOf p i j))))) else none) = .ok t ∧ _
    have hpre : ∀ q (s : Res (Buf τ)), net.pre 0 q s = s := fun q s => rfl
    rw [hpre, hpre, hs0, et, hpart]
    by_cases h0 : 0 < i
    · have hsrc : net.src 0 (rankOf p i j) = rankOf p i ((j + i) % p) := by
        rw [hnet, cannon_src_row O p α β _ (by rfl), prow_rankOf hj, pcol_rankOf hj, if_pos rfl]
      obtain ⟨t', et', g1', -⟩ := cannonStart_ok hO hA hB hC hi
        (Nat.mod_lt (j + i) (Nat.lt_of_le_of_lt (Nat.zero_le _) hi))
      obtain ⟨x, ex, hx⟩ := hO.deliver g1' g2
      refine ⟨{ t with a2 := x }, _, ?_, g1, ?_, g3, g4, g5⟩
      · rw [if_pos (by simpa using h0), hsrc, et']
        show cannonFin O α β 0 _ (.ok t) (some (.ok t'.a1)) = _
        unfold cannonFin
        simp only [Res.bind_ok]
        rw [if_pos trivial, ex]
        rfl
      · rw [Nat.add_comm i j]; exact hx
    · have : i = 0 := by omega
      subst this
      refine ⟨t, _, ?_, g1, ?_, g3, g4, g5⟩
      · rw [if_neg (by simp)]
        rfl
      · rw [Nat.zero_add, Nat.mod_eq_of_lt hj]; exact g2
  -- the alignment of `B` and the product
  obtain ⟨t, x, et, g1, g2, g3, g4, g5⟩ := h1 i j hi hj
  have hpart : net.part 1 (rankOf p i j) = decide (0 < j) := by
    show decide (0 < pcol p (rankOf p i j)) = _
    rw [pcol_rankOf hj]
  show AfterRound Rep RepC p n a b c α β 0 i j (net.fin 1 _ (net.pre 1 _ (net.sync s0 1 (rankOf p i j)))
    (if net.part 1 (rankOf p i j) = true then
      some (net.pay 1 _ (net.pre 1 _ (net.sync s0 1 (net.src 1 (rankOf p i j))))) else none))
  have hpre : ∀ q (s : Res (Buf τ)), net.pre 1 q s = s := fun q s => rfl
  rw [hpre, hpre, et, hpart]
  have hb : ∃ t' : Buf τ, (∃ m, (if decide (0 < j) = true then some (net.pay 1 (net.src 1 (rankOf p i j))
        (net.sync s0 1 (net.src 1 (rankOf p i j)))) else none) = m ∧
      net.fin 1 (rankOf p i j) (.ok t) m = (do
        let c ← O.multiply (rankOf p i j) 0 t'.a2 t'.b2 t'.c α β
        pure { t' with c := c })) ∧ t'.a1 = t.a1 ∧ t'.a2 = t.a2 ∧ t'.b1 = t.b1 ∧ t'.c = t.c ∧
      Rep t'.b2 (tile n ((i + j) % p) j b) := by
    by_cases h0 : 0 < j
    · have hsrc : net.src 1 (rankOf p i j) = rankOf p ((i + j) % p) j := by
        rw [hnet, cannon_src_col O p α β _ (by simp), prow_rankOf hj, pcol_rankOf hj, if_pos rfl]
      obtain ⟨t', x', et', -, -, g3', -⟩ := h1 _ _
        (Nat.mod_lt (i + j) (Nat.lt_of_le_of_lt (Nat.zero_le _) hi)) hj
      obtain ⟨y, ey, hy⟩ := hO.deliver g3' g4
      refine ⟨{ t with b2 := y }, ⟨_, rfl, ?_⟩, rfl, rfl, rfl, rfl, hy⟩
      rw [if_pos (by simpa using h0), hsrc, et']
      show cannonFin O α β 1 _ (.ok t) (some (.ok t'.b1)) = _
      unfold cannonFin
      simp only [Res.bind_ok]
      rw [if_neg (by simp), ey]
      simp only [Res.bind_ok, Res.pure_eq]
      rw [if_neg (by simp)]
      rfl
    · have : j = 0 := by omega
      subst this
      refine ⟨t, ⟨_, rfl, ?_⟩, rfl, rfl, rfl, rfl, ?_⟩
      · rw [if_neg (by simp)]
        rfl
      · rw [Nat.add_zero, Nat.mod_eq_of_lt hi]; exact g4
  obtain ⟨t', ⟨m, em, e'⟩, q1, q2, q3, q4, q5⟩ := hb
  obtain ⟨c', ec, hc'⟩ := hO.multiply (rankOf p i j) 0 (q2 ▸ g2 : Rep t'.a2 _) q5
    (q4 ▸ g5 : RepC t'.c _) α β
  rw [em, e', ec]
  refine ⟨{ t' with c := c' }, x, _, ?_, q1 ▸ g1, q3 ▸ g3, ?_, ?_, ?_⟩
  · rfl
  · rw [Nat.add_zero]; exact q2 ▸ g2
  · rw [Nat.add_zero]; exact q5
  · refine hO.congr hc' fun r s _ _ => ?_
    rw [Finset.sum_range_one, Nat.add_zero]
    ring

theorem cannon_rounds (hO : O.Exact n Rep RepC) {A B C : Nat → τ} (hA : Holds Rep p n A a)
    (hB : Holds Rep p n B b) (hC : Holds RepC p n C c) (k : Nat) : ∀ i j, i < p → j < p →
    AfterRound Rep RepC p n a b c α β k i j
      ((cannonNet O p α β).sync (cannonStart O A B C) (2 * k + 2) (rankOf p i j)) := by
  induction k with
  | zero => exact fun i j hi hj => cannon_round0 hO hA hB hC hi hj
  | succ k ih =>
    set net := cannonNet O p α β with hnet
    set s0 := cannonStart O A B C with hs0
    have hswap : ∀ q (t : Buf τ), net.pre (2 * k + 2) q (.ok t) =
        .ok { t with a1 := t.a2, a2 := t.a1, b1 := t.b2, b2 := t.b1 } := by
      intro q t
      show cannonPre _ _ = _
      unfold cannonPre
      rw [if_pos ⟨by omega, by omega⟩]
      rfl
    have hpre : ∀ q (s : Res (Buf τ)), net.pre (2 * k + 3) q s = s := by
      intro q s
      show cannonPre _ _ = _
      unfold cannonPre
      rw [if_neg (by omega)]
    have hfin : ∀ k q s m, net.fin k q s m = cannonFin O α β k q s m := fun _ _ _ _ => rfl
    have hpayE : ∀ q (t : Buf τ), net.pay (2 * k + 2) q (.ok t) = .ok t.a1 := by
      intro q t
      show Res.ok (if (2 * k + 2) % 2 = 0 then t.a1 else t.b1) = _
      rw [if_pos (by omega)]
    have hpayO : ∀ q (t : Buf τ), net.pay (2 * k + 3) q (.ok t) = .ok t.b1 := by
      intro q t
      show Res.ok (if (2 * k + 3) % 2 = 0 then t.a1 else t.b1) = _
      rw [if_neg (by omega)]
    have hmod : ∀ x y, ((x + (y + 1) % p + k) % p) = (x + y + (k + 1)) % p := by
      intro x y
      rw [Nat.add_right_comm, Nat.add_mod_mod]
      congr 1
      omega
    have hmod' : ∀ x y, (((x + 1) % p + y + k) % p) = (x + y + (k + 1)) % p := by
      intro x y
      rw [Nat.add_assoc, Nat.mod_add_mod]
      congr 1
      omega
    have h1 : ∀ i j, i < p → j < p → ∃ t x y, net.sync s0 (2 * k + 3) (rankOf p i j) = .ok t ∧
        Rep t.a1 x ∧ Rep t.b2 y ∧ Rep t.a2 (tile n i ((i + j + (k + 1)) % p) a) ∧
        Rep t.b1 (tile n ((i + j + k) % p) j b) ∧
        RepC t.c (fun r s => β * tile n i j c r s + α * ∑ l ∈ Finset.range (k + 1),
          Spec.mul n (tile n i ((i + j + l) % p) a) (tile n ((i + j + l) % p) j b) r s) := by
      intro i j hi hj
      have hjp : (j + 1) % p < p := Nat.mod_lt _ (by omega)
      obtain ⟨t, x, y, et, g1, g2, g3, g4, g5⟩ := ih i j hi hj
      obtain ⟨t', x', y', et', -, -, g3', -⟩ := ih i ((j + 1) % p) hi hjp
      have hpart : net.part (2 * k + 2) (rankOf p i j) = true := by
        show (if 2 * k + 2 = 0 then decide (0 < prow p (rankOf p i j)) else if 2 * k + 2 = 1 then
          decide (0 < pcol p (rankOf p i j)) else true) = true
        rw [if_neg (by omega), if_neg (by omega)]
      have hsrc : net.src (2 * k + 2) (rankOf p i j) = rankOf p i ((j + 1) % p) := by
        rw [hnet, cannon_src_row O p α β _ (by omega), prow_rankOf hj, pcol_rankOf hj,
          if_neg (by omega)]
      rw [hmod] at g3'
      obtain ⟨z, ez, hz⟩ := hO.deliver g3' g1
      refine ⟨{ t with a1 := t.a2, a2 := z, b1 := t.b2, b2 := t.b1 }, _, y, ?_, g3, g2, hz, g4, g5⟩
      show net.fin (2 * k + 2) _ (net.pre (2 * k + 2) _ (net.sync s0 (2 * k + 2) (rankOf p i j)))
        (if net.part (2 * k + 2) (rankOf p i j) = true then some (net.pay (2 * k + 2) _
          (net.pre (2 * k + 2) _ (net.sync s0 (2 * k + 2) (net.src (2 * k + 2) (rankOf p i j)))))
        else none) = _
      rw [if_pos hpart, hsrc, et, et', hswap, hswap]
      rw [hpayE]
      rw [hfin]
      unfold cannonFin
      simp only [Res.bind_ok]
      rw [if_pos (by omega), ez]
      simp only [Res.bind_ok, Res.pure_eq]
      rw [if_pos (by omega)]
    intro i j hi hj
    have hip : (i + 1) % p < p := Nat.mod_lt _ (by omega)
    obtain ⟨t, x, y, et, g1, g2, g3, g4, g5⟩ := h1 i j hi hj
    obtain ⟨t', x', y', et', -, -, -, g4', -⟩ := h1 ((i + 1) % p) j hip hj
    have hpart : net.part (2 * k + 3) (rankOf p i j) = true := by
      show (if 2 * k + 3 = 0 then decide (0 < prow p (rankOf p i j)) else if 2 * k + 3 = 1 then
        decide (0 < pcol p (rankOf p i j)) else true) = true
      rw [if_neg (by omega), if_neg (by omega)]
    have hsrc : net.src (2 * k + 3) (rankOf p i j) = rankOf p ((i + 1) % p) j := by
      rw [hnet, cannon_src_col O p α β _ (by omega), prow_rankOf hj, pcol_rankOf hj,
        if_neg (by omega)]
    rw [hmod'] at g4'
    obtain ⟨z, ez, hz⟩ := hO.deliver g4' g2
    obtain ⟨c', ec, hc'⟩ := hO.multiply (rankOf p i j) (k + 1) g3 hz g5 α 1
    refine ⟨{ t with b2 := z, c := c' }, x, _, ?_, g1, g4, g3, hz, ?_⟩
    · show net.fin (2 * k + 3) _ (net.pre (2 * k + 3) _ (net.sync s0 (2 * k + 3) (rankOf p i j)))
        (if net.part (2 * k + 3) (rankOf p i j) = true then some (net.pay (2 * k + 3) _
          (net.pre (2 * k + 3) _ (net.sync s0 (2 * k + 3) (net.src (2 * k + 3) (rankOf p i j)))))
        else none) = _
      rw [if_pos hpart, hsrc, et, et', hpre, hpre]
      rw [hpayO]
      rw [hfin]
      unfold cannonFin
      simp only [Res.bind_ok]
      rw [if_neg (by omega), ez]
      simp only [Res.bind_ok, Res.pure_eq]
      rw [if_neg (by omega), show (2 * k + 3) / 2 = k + 1 by omega, if_neg (by omega), ec]
      rfl
    · refine hO.congr hc' fun r s _ _ => ?_
      rw [Finset.sum_range_succ _ (k + 1)]
      ring

/-- The phase by phase computation gives every rank its tile of `alpha A B + beta C`. -/
theorem cannon_sync (hO : O.Exact n Rep RepC) {A B C : Nat → τ} (hA : Holds Rep p n A a)
    (hB : Holds Rep p n B b) (hC : Holds RepC p n C c) {i j : Nat} (hi : i < p) (hj : j < p) :
    ∃ t, (cannonNet O p α β).sync (cannonStart O A B C) (2 * p) (rankOf p i j) = .ok t ∧
      RepC t.c (tile n i j fun r s => α * Spec.mul (p * n) a b r s + β * c r s) := by
  have h := cannon_rounds (α := α) (β := β) hO hA hB hC (p - 1) i j hi hj
  rw [show 2 * (p - 1) + 2 = 2 * p by omega] at h
  obtain ⟨t, -, -, et, -, -, -, -, g⟩ := h
  refine ⟨t, et, hO.congr g fun r s _ _ => ?_⟩
  rw [show p - 1 + 1 = p by omega]
  have e1 := tile_mul p n i j a b r s
  have e2 := sum_ring (p := p) (i + j)
    (fun l => Spec.mul n (tile n i l a) (tile n l j b) r s)
  rw [e2, ← e1]
  show β * c _ _ + α * Spec.mul (p * n) a b _ _ = α * Spec.mul (p * n) a b _ _ + β * c _ _
  ring

end Correct

end Bml.Dist
