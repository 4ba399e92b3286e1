import Verif.Dist.Message
import Verif.Dist.Async
import Verif.Dist.Grid
import Verif.Gershgorin
import Verif.Common.Domain

/-!
# The functions on 2-D distributed matrices

`src/C-interface/distributed2d`: every rank of the `p × p` grid calls a function of the local format
on its tile, some exchange messages.  The local functions are parameters (`Local`); the formats are
put in later.
-/

namespace Bml.Dist

variable {τ R : Type}

/-- The local functions that the distributed functions call.  The first argument is the rank, so
that schedules and uninitialised memory may differ; thresholds are fixed.  `copyNew m` is
`bml_noinit_matrix(.., n, m, ..)` followed by `bml_copy`; `deliver B A` is what `bml_mpi_irecv(B)` and
`bml_mpi_irecv_complete(B)` leave when the other side calls `bml_mpi_send(A)`; the constructors get
the dimensions `n` and `m`. -/
structure Local (τ R : Type) where
  copyNew : Nat → Nat → τ → Res τ
  deliver : τ → τ → Res τ
  add : Nat → τ → τ → R → R → Res τ
  addIdentity : Nat → τ → R → Res τ
  scaleAddIdentity : Nat → τ → R → R → Res τ
  scaleInplace : Nat → R → τ → Res τ
  threshold : Nat → τ → Res τ
  setRow : Nat → τ → Nat → Arr R → Res τ
  getRow : Nat → τ → Nat → Res (Arr R)
  setDiagonal : Nat → τ → Arr R → Res τ
  getDiagonal : Nat → τ → Res (Arr R)
  trace : Nat → τ → Res R
  sumSquares : Nat → τ → Res R
  transpose : Nat → τ → Res τ
  zero : Nat → Nat → Nat → Res τ
  identity : Nat → Nat → Nat → Res τ
  importDense : Nat → Order → Nat → Nat → Arr R → Res τ
  exportDense : Nat → τ → Order → Res (Arr R)

/-! ## Collective operations -/

/-- `MPI_Allreduce` with `MPI_SUM` (`bml_sumRealReduce`, `src/C-interface/bml_parallel.c` 108-118):
the sum of the values of `P` ranks. The order of the additions does not matter in a ring. -/
def sumReduce [AddCommMonoid R] (P : Nat) (v : Nat → Res R) : Res R :=
  loop P 0 fun r s => do
    let x ← v r
    pure (s + x)

/-- `MPI_Allreduce` with an operation on values that are there. -/
def reduce (op : R → R → R) (P : Nat) (init : R) (v : Nat → Res R) : Res R :=
  loop P init fun r s => do
    let x ← v r
    pure (op s x)

/-- The MPI standard: no location of the receive buffer may be written more than once. -/
def gathervOk (P : Nat) (counts displs : Nat → Nat) : Bool :=
  decide (∀ s, s < P → ∀ t, t < s → displs s + counts s ≤ displs t ∨ displs t + counts t ≤ displs s ∨
    counts s = 0 ∨ counts t = 0)

/-- `MPI_Allgatherv`: the receive buffer of a rank after the call; rank `s` sends `send s`. -/
def allGatherv (P : Nat) (send : Nat → Res (Arr R)) (counts displs : Nat → Nat) (recv : Arr R) :
    Res (Arr R) :=
  if gathervOk P counts displs then
    loop P recv fun s recv => do
      let x ← send s
      copyRange x 0 recv (displs s) (counts s)
  else .ub

/-- LAPACK `LACPY("A", n, n, src + s, lds, dst + d, ldd)`: `n` columns of `n` elements. -/
def lacpy (n : Nat) (src : Arr R) (s lds : Nat) (dst : Arr R) (d ldd : Nat) : Res (Arr R) :=
  loop n dst fun c dst => copyRange src (s + c * lds) dst (d + c * ldd) n

/-! ## Local calls

`bml_add_distributed2d.c`, `bml_scale_distributed2d.c`, `bml_threshold_distributed2d.c`,
`bml_setters_distributed2d_typed.c`, `bml_allocate_distributed2d.c`: what rank `r` does. -/

/-- `bml_add_distributed2d`, lines 24-33. -/
def add (L : Local τ R) (r : Nat) (A B : τ) (α β : R) : Res τ := L.add r A B α β

/-- `bml_add_identity_distributed2d`, lines 72-79. -/
def addIdentity (L : Local τ R) (r : Nat) (A : τ) (β : R) : Res τ := L.addIdentity r A β

/-- `bml_scale_add_identity_distributed2d`, lines 91-99. -/
def scaleAddIdentity (L : Local τ R) (r : Nat) (A : τ) (α β : R) : Res τ := L.scaleAddIdentity r A α β

/-- `bml_scale_inplace_distributed2d`, lines 51-57. -/
def scaleInplace (L : Local τ R) (r : Nat) (c : R) (A : τ) : Res τ := L.scaleInplace r c A

/-- `bml_copy_distributed2d_new`, `bml_copy_distributed2d.c` 19-35; the width of the new local matrix is
`M / sqrtint(ntasks)`. -/
def copyNew (L : Local τ R) (p M r : Nat) (A : τ) : Res τ := L.copyNew r (M / p) A

/-- `bml_threshold_new_distributed2d`, `bml_threshold_distributed2d.c` 19-35. -/
def thresholdNew (L : Local τ R) (p M r : Nat) (A : τ) : Res τ := do
  let B ← L.copyNew r (M / p) A
  L.threshold r B

/-- `bml_set_diagonal_distributed2d`, lines 7-20. -/
def setDiagonal (L : Local τ R) (p N r : Nat) (A : τ) (diagonal : Arr R) : Res τ :=
  if prow p r = pcol p r then L.setDiagonal r A (diagonal.drop (prow p r * N / p)) else pure A

/-- `bml_set_row_distributed2d`, lines 22-43. -/
def setRow (L : Local τ R) (p N r : Nat) (A : τ) (i : Nat) (row : Arr R) : Res τ :=
  if i < prow p r * (N / p) then pure A
  else if i ≥ (prow p r + 1) * (N / p) then pure A
  else L.setRow r A (i - prow p r * (N / p)) (row.drop (pcol p r * (N / p)))

/-- `bml_zero_matrix_distributed2d`, lines 149-168, with the assertions. -/
def zeroMatrix (L : Local τ R) (p N M r : Nat) : Res τ :=
  if N > 0 ∧ M > 0 ∧ N / p * p = N then L.zero r (N / p) (M / p) else .error

/-- `bml_identity_matrix_distributed2d`, lines 216-239. -/
def identityMatrix (L : Local τ R) (p N M r : Nat) : Res τ :=
  if M > 0 ∧ N / p * p = N then
    if prow p r = pcol p r then L.identity r (N / p) (M / p) else L.zero r (N / p) (M / p)
  else .error

/-! ## Reductions -/

/-- `bml_trace_distributed2d`, `bml_trace_distributed2d.c` 18-30. -/
def trace [AddCommMonoid R] (L : Local τ R) (p : Nat) (D : Nat → τ) : Res R :=
  sumReduce (p * p) fun r => if prow p r = pcol p r then L.trace r (D r) else pure 0

/-- `bml_sum_squares_distributed2d`, `bml_norm_distributed2d.c` 21-30. -/
def sumSquares [AddCommMonoid R] (L : Local τ R) (p : Nat) (D : Nat → τ) : Res R :=
  sumReduce (p * p) fun r => L.sumSquares r (D r)

/-- `bml_trace_mult_distributed2d`, `bml_trace_distributed2d.c` 41-51; also the shape of `bml_sum_AB`
and `bml_sum_squares2` (`bml_norm_distributed2d.c` 43-83): a local number of two matrices, summed. -/
def sumPairs [AddCommMonoid R] (f : Nat → τ → τ → Res R) (p : Nat) (A B : Nat → τ) : Res R :=
  sumReduce (p * p) fun r => f r (A r) (B r)

/-! ## Rows -/

/-- The loop in lines 38-40 of `bml_get_row_distributed2d`: `displs` comes from `calloc`. -/
def rowDispls (P : Nat) (counts : Nat → Nat) : Res (Arr Nat) :=
  loop (P - 1) ⟨P, fun _ => 0⟩ fun i d => do
    let x ← d.read (i + 1)
    d.write (i + 1) (x + counts i)

/-- Lines 21-28: the number of elements that rank `r` contributes to row `i`. -/
def rowCountOf (p N i r : Nat) : Nat :=
  if i ≥ prow p r * (N / p) ∧ i < (prow p r + 1) * (N / p) then N / p else 0

/-- `bml_get_row_distributed2d`, `bml_getters_distributed2d_typed.c` 9-55: what a rank gets.  `junk`
is what `malloc` returned. -/
def getRow (L : Local τ R) (p N : Nat) (D : Nat → τ) (i : Nat) (junk : Nat → R) : Res (Arr R) := do
  let displs ← rowDispls (p * p) (rowCountOf p N i)
  allGatherv (p * p)
    (fun r => if i ≥ prow p r * (N / p) ∧ i < (prow p r + 1) * (N / p) then
        L.getRow r (D r) (i - prow p r * (N / p))
      else pure ⟨0, junk⟩)
    (rowCountOf p N i) displs.get ⟨N, junk⟩

/-! ## Import and export -/

/-- `n * N * ip + n * jp` behind a pointer, `bml_export_distributed2d_typed.c` 71 and
`bml_import_distributed2d_typed.c` 73: the two summands are computed in `int`.  Rank 0 uses the array
itself (lines 52, 79). -/
def tileOffset (p N n r : Nat) : Res Nat :=
  if r = 0 then .ok 0
  else do
    let a ← intArith.mul n N
    let b ← intArith.mul a (prow p r)
    let c ← intArith.mul n (pcol p r)
    pure (b + c)

/-- `bml_import_from_dense_distributed2d`, `bml_import_distributed2d_typed.c` 28-104, for rank `r`.
Rank 0 cuts out the tile of every rank (lines 64-79) and sends it; there is one message for each
rank, sent without waiting, so the receive buffer of rank `r` is its tile. `junk` is the fresh
buffer. -/
def importDense (L : Local τ R) (order : Order) (p N M : Nat) (array : Arr R) (junk : Nat → R) (r : Nat) :
    Res τ :=
  let n := N / p
  if M > 0 ∧ n * p = N ∧ M / p ≤ n ∧ M / p > 0 then do
    let o ← tileOffset p N n r
    let buf ← lacpy n array o N ⟨n * n, junk⟩ 0 n
    L.importDense r order n (M / p) buf
  else .error

/-- `bml_export_to_dense_distributed2d`, `bml_export_distributed2d_typed.c` 24-82: what rank 0 returns.
The other ranks return `NULL`. Each rank sends one message, which rank 0 puts into its place
whenever it comes; the order of the loop is that of lines 52 and 64-72. -/
def exportDense (L : Local τ R) (order : Order) (p N : Nat) (D : Nat → τ) (junk : Nat → R) :
    Res (Arr R) :=
  let n := N / p
  loop (p * p) ⟨N * N, junk⟩ fun r out => do
    let buf ← L.exportDense r (D r) order
    let o ← tileOffset p N n r
    lacpy n buf 0 n out o N

/-! ## Transposition -/

/-- `bml_transpose_new_distributed2d`, `bml_transpose_distributed2d.c` 21-42: the local state is
`A->matrix` and `B->matrix`.  One phase; the ranks on the diagonal do not communicate. -/
def transposeNewNet (L : Local τ R) (p : Nat) : Net (Res (τ × τ)) (Res τ) where
  P := p * p
  K := 1
  part _ r := decide (prow p r ≠ pcol p r)
  src _ r := pcol p r * p + prow p r
  dst _ r := pcol p r * p + prow p r
  pre _ _ s := s
  pay _ _ s := s >>= fun s => pure s.1
  fin _ r s m := do
    let s ← s
    let b ← match m with
      | none => pure s.2
      | some m => do
        let m ← m
        L.deliver s.2 m
    let b ← L.transpose r b
    pure (s.1, b)

/-- `bml_transpose_distributed2d`, lines 51-71. -/
def transposeNet (L : Local τ R) (p : Nat) : Net (Res (τ × τ)) (Res τ) where
  P := p * p
  K := 1
  part _ r := decide (prow p r ≠ pcol p r)
  src _ r := pcol p r * p + prow p r
  dst _ r := pcol p r * p + prow p r
  pre _ _ s := s
  pay _ _ s := s >>= fun s => pure s.2
  fin _ r s m := do
    let s ← s
    let a ← match m with
      | none => pure s.1
      | some m => do
        let m ← m
        L.deliver s.1 m
    let a ← L.transpose r a
    pure (a, s.2)

/-- Line 27 (57): the copy `B`. -/
def transposeStart (L : Local τ R) (p M : Nat) (D : Nat → τ) (r : Nat) : Res (τ × τ) := do
  let b ← copyNew L p M r (D r)
  pure (D r, b)

/-! ## Normalisation -/

section Gersh

variable {K : Type} [Field K] [LinearOrder K]

/-- `bml_normalize_distributed2d`, `bml_normalize_distributed2d_typed.c` 16-30; `L.addIdentity` has
threshold 0. -/
def normalize (L : Local τ K) (p r : Nat) (A : τ) (mineval maxeval : K) : Res τ := do
  let A ← L.scaleInplace r (-1 / (maxeval - mineval)) A
  if prow p r = pcol p r then L.addIdentity r A (maxeval / (maxeval - mineval)) else pure A

/-- Line 40: element `i` of `rad` on the ranks of row `q` of the grid. -/
def rowRadius (off : Nat → Bool → τ → Res (Arr K)) (p : Nat) (D : Nat → τ) (q i : Nat) : Res K :=
  sumReduce p fun c => do
    let s ← off (rankOf p q c) (decide (q ≠ c)) (D (rankOf p q c))
    s.read i

/-- Lines 43-58: `emin` and `emax` of rank `r`. -/
def gershRank (diag : Nat → τ → Res (Arr R)) (off : Nat → Bool → τ → Res (Arr K)) (re : R → K)
    (top bot : K) (p N : Nat) (D : Nat → τ) (r : Nat) : Res (K × K) :=
  if prow p r = pcol p r then do
    let dval ← diag r (D r)
    loop (N / p) (top, bot) fun i st => do
      let d ← dval.read i
      let rad ← rowRadius off p D (prow p r) i
      let emax := if re d + rad > st.2 then re d + rad else st.2
      let emin := if re d - rad < st.1 then re d - rad else st.1
      pure (emin, emax)
  else pure (top, bot)

/-- `bml_gershgorin_distributed2d`, lines 32-67; `off` is `bml_accumulate_offdiag` of the local format,
`top` and `bot` are `DBL_MAX` and `DBL_MIN`. -/
def gershgorin (diag : Nat → τ → Res (Arr R)) (off : Nat → Bool → τ → Res (Arr K)) (re : R → K)
    (top bot : K) (p N : Nat) (D : Nat → τ) : Res (K × K) := do
  let lo ← reduce min (p * p) top fun r => do
    let e ← gershRank diag off re top bot p N D r
    pure e.1
  let hi ← reduce max (p * p) bot fun r => do
    let e ← gershRank diag off re top bot p N D r
    pure e.2
  pure (lo, hi)

end Gersh

/-! ## Lemmas on collective operations -/

theorem sumReduce_eq [AddCommMonoid R] {P : Nat} {v : Nat → Res R} {g : Nat → R}
    (h : ∀ r, r < P → v r = .ok (g r)) : sumReduce P v = .ok (∑ r ∈ Finset.range P, g r) := by
  induction P with
  | zero => rfl
  | succ P ih =>
    unfold sumReduce at ih ⊢
    rw [loop_succ, ih fun r hr => h r (by omega), Res.bind_ok, h P (by omega), Res.bind_ok,
      Finset.sum_range_succ]
    rfl

theorem sum_ranks [AddCommMonoid R] (p : Nat) (g : Nat → R) : ∑ r ∈ Finset.range (p * p), g r =
    ∑ i ∈ Finset.range p, ∑ j ∈ Finset.range p, g (rankOf p i j) := sum_tiles p p g

theorem total_tiles [AddCommMonoid R] (p n : Nat) (f : Spec.Mat R) : Spec.total (p * n) (p * n) f =
    ∑ i ∈ Finset.range p, ∑ j ∈ Finset.range p, Spec.total n n (tile n i j f) := by
  unfold Spec.total
  rw [sum_tiles]
  refine Finset.sum_congr rfl fun i _ => ?_
  exact (Finset.sum_congr rfl fun r _ => sum_tiles p n _).trans Finset.sum_comm

theorem tr_tiles [AddCommMonoid R] (p n : Nat) (a : Spec.Mat R) : Spec.tr (p * n) a =
    ∑ i ∈ Finset.range p, ∑ j ∈ Finset.range p, if i = j then Spec.tr n (tile n i j a) else 0 := by
  unfold Spec.tr
  rw [sum_tiles]
  refine Finset.sum_congr rfl fun i hi => ?_
  rw [Finset.sum_ite_eq, if_pos hi]
  rfl

theorem wp_lacpy {E : Prop} {n : Nat} {src dst : Arr R} {s lds d ldd : Nat}
    (hs : ∀ c, c < n → s + c * lds + n ≤ src.size) (hd : ∀ c, c < n → d + c * ldd + n ≤ dst.size)
    (hl : n ≤ ldd) :
    (lacpy n src s lds dst d ldd).wp E (fun out => out.size = dst.size ∧
      (∀ c k, c < n → k < n → out.get (d + c * ldd + k) = src.get (s + c * lds + k)) ∧
      ∀ q, (∀ c k, c < n → k < n → q ≠ d + c * ldd + k) → out.get q = dst.get q) := by
  unfold lacpy
  refine wp_loop' (fun m out => out.size = dst.size ∧
      (∀ c k, c < m → k < n → out.get (d + c * ldd + k) = src.get (s + c * lds + k)) ∧
      ∀ q, (∀ c k, c < m → k < n → q ≠ d + c * ldd + k) → out.get q = dst.get q)
    ⟨rfl, fun _ _ h => absurd h (Nat.not_lt_zero _), fun _ _ => rfl⟩ ?_ (fun _ h => h)
  rintro m hm out ⟨h1, h2, h3⟩
  refine Res.wp_mono (wp_copyRange (hs m hm) (by rw [h1]; exact hd m hm)) ?_
  rintro out' ⟨g1, g2⟩
  refine ⟨g1.trans h1, fun c k hc hk => ?_, fun q hq => ?_⟩
  · rw [g2]
    rcases Nat.lt_succ_iff_lt_or_eq.1 hc with hc | rfl
    · have h4 : (c + 1) * ldd ≤ m * ldd := Nat.mul_le_mul_right _ hc
      rw [Nat.succ_mul] at h4
      rw [if_neg (by omega)]
      exact h2 c k hc hk
    · rw [if_pos (by omega)]
      congr 1
      omega
  · rw [g2, if_neg]
    · exact h3 q fun c k hc hk => hq c k (by omega) hk
    · rintro ⟨q1, q2⟩
      exact hq m (q - (d + m * ldd)) (by omega) (by omega) (by omega)

theorem wp_allGatherv {E : Prop} {P : Nat} {send : Nat → Res (Arr R)} {x : Nat → Arr R}
    {counts displs : Nat → Nat} {recv : Arr R} (hsend : ∀ s, s < P → send s = .ok (x s))
    (hx : ∀ s, s < P → counts s ≤ (x s).size)
    (hfit : ∀ s, s < P → displs s + counts s ≤ recv.size)
    (hok : ∀ s, s < P → ∀ t, t < s → displs s + counts s ≤ displs t ∨
      displs t + counts t ≤ displs s ∨ counts s = 0 ∨ counts t = 0) :
    (allGatherv P send counts displs recv).wp E (fun out => out.size = recv.size ∧
      (∀ s k, s < P → k < counts s → out.get (displs s + k) = (x s).get k) ∧
      ∀ q, (∀ s k, s < P → k < counts s → q ≠ displs s + k) → out.get q = recv.get q) := by
  unfold allGatherv
  rw [if_pos (show gathervOk P counts displs = true by unfold gathervOk; exact decide_eq_true hok)]
  refine wp_loop' (fun m out => out.size = recv.size ∧
      (∀ s k, s < m → k < counts s → out.get (displs s + k) = (x s).get k) ∧
      ∀ q, (∀ s k, s < m → k < counts s → q ≠ displs s + k) → out.get q = recv.get q)
    ⟨rfl, fun _ _ h => absurd h (Nat.not_lt_zero _), fun _ _ => rfl⟩ ?_ (fun _ h => h)
  rintro m hm out ⟨h1, h2, h3⟩
  rw [hsend m hm, Res.bind_ok]
  refine Res.wp_mono (wp_copyRange (by rw [Nat.zero_add]; exact hx m hm)
    (by rw [h1]; exact hfit m hm)) ?_
  rintro out' ⟨g1, g2⟩
  refine ⟨g1.trans h1, fun s k hs hk => ?_, fun q hq => ?_⟩
  · rw [g2]
    rcases Nat.lt_succ_iff_lt_or_eq.1 hs with hs | rfl
    · rw [if_neg, h2 s k hs hk]
      have := hok m hm s hs
      omega
    · rw [if_pos (by omega)]
      congr 1
      omega
  · rw [g2, if_neg]
    · exact h3 q fun s k hs hk => hq s k (by omega) hk
    · rintro ⟨q1, q2⟩
      exact hq m (q - displs m) (by omega) (by omega) (by omega)

theorem wp_rowDispls {E : Prop} (P : Nat) (counts : Nat → Nat) :
    (rowDispls P counts).wp E (fun d => d.size = P ∧
      ∀ s, s < P → d.get s = if s = 0 then 0 else counts (s - 1)) := by
  unfold rowDispls
  refine wp_loop' (fun m (d : Arr Nat) => d.size = P ∧
      ∀ s, s < P → d.get s = if s = 0 then 0 else if s ≤ m then counts (s - 1) else 0)
    ⟨rfl, fun s _ => ?_⟩ ?_ ?_
  · by_cases h : s = 0
    · rw [if_pos h]
    · rw [if_neg h, if_neg (by omega)]
  · rintro m hm d ⟨h1, h2⟩
    have hr : d.read (m + 1) = .ok 0 := by
      rw [Arr.read_ok (by omega), h2 _ (by omega), if_neg (by omega), if_neg (by omega)]
    rw [hr, Res.bind_ok, Arr.write_ok _ (show m + 1 < d.size by omega)]
    refine ⟨h1, fun s hs => ?_⟩
    show upd d.get (m + 1) (0 + counts m) s = _
    by_cases he : s = m + 1
    · subst he
      rw [upd_same, if_neg (by omega), if_pos (by omega)]
      simp
    · rw [upd_ne _ _ he, h2 s hs]
      by_cases h0 : s = 0
      · rw [if_pos h0, if_pos h0]
      · rw [if_neg h0, if_neg h0]
        by_cases h3 : s ≤ m
        · rw [if_pos h3, if_pos (by omega)]
        · rw [if_neg h3, if_neg (by omega)]
  · rintro d ⟨h1, h2⟩
    refine ⟨h1, fun s hs => ?_⟩
    rw [h2 s hs]
    by_cases h0 : s = 0
    · rw [if_pos h0, if_pos h0]
    · rw [if_neg h0, if_neg h0, if_pos (by omega)]

/-! ## From ranks to the distributed matrix -/

/-- Every rank's call returns: rank `r` with `D' r`. -/
def Calls (p : Nat) (f : Nat → Res τ) (D' : Nat → τ) : Prop := ∀ r, r < p * p → f r = .ok (D' r)

theorem calls_of {p n : Nat} {Rep : τ → Spec.Mat R → Prop} {f : Nat → Res τ} {a : Spec.Mat R}
    (hp : 0 < p)
    (h : ∀ i j, i < p → j < p → ∃ A, f (rankOf p i j) = .ok A ∧ Rep A (tile n i j a)) :
    ∃ D', Calls p f D' ∧ Holds Rep p n D' a := by
  obtain ⟨A0, -⟩ := h 0 0 hp hp
  have h' : ∀ r, ∃ A, r < p * p → f r = .ok A ∧ Rep A (tile n (prow p r) (pcol p r) a) := by
    intro r
    by_cases hr : r < p * p
    · obtain ⟨A, e, hA⟩ := h _ _ (prow_lt hr) (pcol_lt hr)
      rw [rankOf_coords] at e
      exact ⟨A, fun _ => ⟨e, hA⟩⟩
    · exact ⟨A0, fun h => absurd h hr⟩
  choose D' hD' using h'
  refine ⟨D', fun r hr => (hD' r hr).1, fun i j hi hj => ?_⟩
  have := (hD' _ (rankOf_lt hi hj)).2
  rwa [prow_rankOf hj, pcol_rankOf hj] at this

end Bml.Dist
