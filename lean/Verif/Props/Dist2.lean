import Verif.Dist.WrapFormats
import Verif.Props.Dist
import Verif.Wlp

/-!
# Property C43: the functions on distributed matrices

The matrix is `p n × p n`, rank `i p + j` has the `n × n` tile `(i,j)` in its local matrix: `Holds`.
`Calls p f D'`: the call of `f` returns on every rank, and leaves `D' r` on rank `r`.

The local format is a parameter: `L.Exact n m kp thr Rep RepC` says that the functions of the local
format are right.  `C43_local_dense`, `C43_local_ellpack` and `C43_local_csr` show it for the three
formats; `kp` is what the format's threshold leaves of a number.
-/

namespace Bml.Props

open Dist

variable {R : Type} [CommRing R]

/-! ## The formats -/

/-- **C43**, dense local matrices: the threshold of `bml_add` and the like has no effect (C08), so
`kp x = x`. -/
theorem C43_local_dense {c : DenseRun R} {n : Nat} (hc : c.Ok n) (m : Nat) (bigT : R → Bool) :
    (denseLocal c bigT).Exact n m (fun x => x) (Spec.keep bigT) (fun A a => A.Represents n a)
      (fun A a => A.Represents n a) := denseLocal_exact hc m bigT

/-- **C43**, ELLPACK local matrices with room for full rows. -/
theorem C43_local_ellpack [DecidableEq R] {c : EllWrap R} {n m : Nat} (hc : c.Ok n) (hm : n ≤ m) (h0 : 0 < m)
    (big bigT : R → Bool) :
    (ellLocal c big bigT).Exact n m (Spec.keep big) (Spec.keep bigT)
      (fun A a => A.Represents n a ∧ A.M = m) (fun A a => A.Represents n a ∧ A.M = m) :=
  ellLocal_exact hc hm h0 big bigT

/-- **C43**, CSR local matrices: rows of at most `m` or of at most ten entries; the matrix that
`bml_add` changes must have the space for the sum (C08). -/
theorem C43_local_csr [DecidableEq R] {c : CsrWrap R} {n m : Nat} (hc : c.Ok n) (hm : n ≤ m * 2)
    (hsp : n ≤ m ∨ n ≤ 10) (hn : n ≤ 174762) (big bigT : R → Bool) {big0 : R → Bool}
    (h0 : ∀ x, big0 x = false → x = 0) :
    (csrLocal c big bigT big0).Exact n m (Spec.keep big) (Spec.keep bigT)
      (fun A a => A.Represents n a ∧ A.M = m)
      (fun A a => (A.Represents n a ∧ A.M = m) ∧ ∀ i, i < n → n ≤ (A.data.get i).alloc) :=
  csrLocal_exact hc hm hsp hn big bigT h0

/-- Runs for the examples. -/
def exDRun : DenseRun Int := ⟨fun _ => [(1, 1), (0, 0)], fun _ => seqSched 0 4, fun _ => seqSched 0 1,
  fun _ _ => 7⟩

theorem exDRun_ok : exDRun.Ok 2 :=
  ⟨fun _ => List.Perm.swap 0 1 [], fun _ => isSched_seq 0 4, fun _ => isSched_seq 0 1⟩

/-- Dense tiles, `2 × 2`. -/
def exL : Local (Dense Int) Int := denseLocal exDRun fun x => decide (x > 5)

theorem exL_exact : exL.Exact 2 2 (fun x => x) (Spec.keep fun x => decide (x > 5))
    (fun A a => A.Represents 2 a) (fun A a => A.Represents 2 a) := C43_local_dense exDRun_ok 2 _

/-- ELLPACK tiles. -/
def exERun : EllWrap Int := ⟨fun _ => exSched, fun _ => exSched, fun _ _ => 5, fun _ _ => 9⟩

example : (ellLocal exERun (fun x => decide (x ≠ 0)) (fun x => decide (x ≠ 0))).Exact 3 4
    (Spec.keep fun x => decide (x ≠ 0)) (Spec.keep fun x => decide (x ≠ 0))
    (fun A a => A.Represents 3 a ∧ A.M = 4) (fun A a => A.Represents 3 a ∧ A.M = 4) :=
  C43_local_ellpack ⟨fun _ => exSched_ok, fun _ => exSched_ok⟩ (by omega) (by omega) _ _

/-- CSR tiles. -/
def exSRun : CsrWrap Int := ⟨fun _ => seqSched 0 2, fun _ => [(1, 1), (0, 0)], fun _ => seqSched 0 2,
  fun _ _ _ => 5, fun _ _ _ => 9, fun _ _ => 3, fun _ _ => ⟨none, 0, 0⟩⟩

theorem exSRun_exact : (csrLocal exSRun (fun x => decide (x ≠ 0)) (fun x => decide (x ≠ 0))
      (fun x => decide (x ≠ 0))).Exact 2 2
    (Spec.keep fun x => decide (x ≠ 0)) (Spec.keep fun x => decide (x ≠ 0))
    (fun A a => A.Represents 2 a ∧ A.M = 2)
    (fun A a => (A.Represents 2 a ∧ A.M = 2) ∧ ∀ i, i < 2 → 2 ≤ (A.data.get i).alloc) :=
  C43_local_csr (c := exSRun) (n := 2) ⟨fun _ => isSched_seq 0 2, fun _ => List.Perm.swap 0 1 [], fun _ => isSched_seq 0 2⟩
    (by omega) (by omega) (by omega) _ _ fun x hx => by simpa using hx

section Generic

variable {τ : Type} {L : Local τ R} {p n m : Nat} {kp thr : R → R} {Rep RepC : τ → Spec.Mat R → Prop}
  {D E : Nat → τ} {a b : Spec.Mat R}

/-! ## Constructors, copies, arithmetic -/

/-- **C43**, `bml_zero_matrix`: all the tiles are zero. -/
theorem C43_zero (hL : L.Exact n m kp thr Rep RepC) (hp : 0 < p) (hn : 0 < n) {M : Nat} (hM0 : 0 < M)
    (hM : M / p = m) : ∃ D', Calls p (zeroMatrix L p (p * n) M) D' ∧ Holds Rep p n D' Spec.zero :=
  calls_zero hL hp hn hM0 hM

omit [CommRing R] in
/-- **C43**, `bml_zero_matrix` and `bml_identity_matrix`, when the grid does not divide the
dimension: the program ends with a failed assertion. -/
theorem C43_wrong_dimension (L : Local τ R) {p N : Nat} (h : ¬ p ∣ N) (M r : Nat) :
    zeroMatrix L p N M r = .error ∧ identityMatrix L p N M r = .error := by
  have : N / p * p ≠ N := fun e => h ⟨N / p, by rw [Nat.mul_comm]; exact e.symm⟩
  constructor
  · unfold zeroMatrix; rw [if_neg fun h => this h.2.2]
  · unfold identityMatrix; rw [if_neg fun h => this h.2]

example : zeroMatrix exL 2 3 3 1 = .error ∧ identityMatrix exL 2 3 3 1 = .error :=
  C43_wrong_dimension exL (by decide) 3 1

/-- **C43**, `bml_identity_matrix`. -/
theorem C43_identity (hL : L.Exact n m kp thr Rep RepC) (hp : 0 < p) {M : Nat} (hM0 : 0 < M)
    (hM : M / p = m) : ∃ D', Calls p (identityMatrix L p (p * n) M) D' ∧ Holds Rep p n D' Spec.one :=
  calls_identity hL hp hM0 hM

example : ∃ D', Calls 2 (identityMatrix exL 2 4 4) D' ∧
    Holds (fun A a => A.Represents 2 a) 2 2 D' (Spec.one : Spec.Mat Int) :=
  C43_identity exL_exact (by omega) (by omega) rfl

/-- **C43**, `bml_copy_new`. -/
theorem C43_copy_new (hL : L.Exact n m kp thr Rep RepC) (hp : 0 < p) (hA : Holds Rep p n D a)
    {M : Nat} (hM : M / p = m) : ∃ D', Calls p (fun r => copyNew L p M r (D r)) D' ∧ Holds Rep p n D' a :=
  calls_copyNew hL hp hA hM

/-- **C43**, `bml_add`: `alpha A + beta B`, each element through the threshold of the format. -/
theorem C43_add (hL : L.Exact n m kp thr Rep RepC) (hp : 0 < p) (hA : Holds RepC p n D a)
    (hB : Holds Rep p n E b) (α β : R) :
    ∃ D', Calls p (fun r => add L r (D r) (E r) α β) D' ∧
      Holds Rep p n D' (fun i j => kp (α * a i j + β * b i j)) := calls_add hL hp hA hB α β

example : ∃ D', Calls 2 (fun r => add exL r (denseTiles 2 2 exG r) (denseTiles 2 2 exG r) 2 3) D' ∧
    Holds (fun A a => A.Represents 2 a) 2 2 D' (fun i j => 2 * exG i j + 3 * exG i j) :=
  C43_add exL_exact (by omega) (denseTiles_holds 2 2 exG) (denseTiles_holds 2 2 exG) 2 3

/-- **C43**, `bml_scale_inplace`. -/
theorem C43_scale_inplace (hL : L.Exact n m kp thr Rep RepC) (hp : 0 < p) (hA : Holds Rep p n D a)
    (c : R) : ∃ D', Calls p (fun r => scaleInplace L r c (D r)) D' ∧
      Holds Rep p n D' (fun i j => c * a i j) := calls_scaleInplace hL hp hA c

/-- **C43**, `bml_threshold_new`. -/
theorem C43_threshold_new (hL : L.Exact n m kp thr Rep RepC) (hp : 0 < p) (hA : Holds Rep p n D a)
    {M : Nat} (hM : M / p = m) : ∃ D', Calls p (fun r => thresholdNew L p M r (D r)) D' ∧
      Holds Rep p n D' (fun i j => thr (a i j)) := calls_thresholdNew hL hp hA hM

example : ∃ D', Calls 2 (fun r => thresholdNew exL 2 4 r (denseTiles 2 2 exG r)) D' ∧
    Holds (fun A a => A.Represents 2 a) 2 2 D' (fun i j => if exG i j > 5 then exG i j else 0) := by
  obtain ⟨D', h1, h2⟩ := C43_threshold_new exL_exact (by omega) (denseTiles_holds 2 2 exG) (M := 4) rfl
  refine ⟨D', h1, fun i j hi hj => (h2 i j hi hj).congr fun r s _ _ => ?_⟩
  simp [tile, Spec.keep]

/-! ## `bml_add_identity` -/

/-- **C43 fails for `bml_add_identity`**: what it computes.  Every rank adds `beta I` to its tile, not
only the ranks on the diagonal of the grid. -/
theorem C43_add_identity_value (hL : L.Exact n m kp thr Rep RepC) (hp : 0 < p) (hA : Holds Rep p n D a)
    (β : R) : ∃ D', Calls p (fun r => addIdentity L r (D r) β) D' ∧
      Holds Rep p n D' (fun i j => kp (a i j + β * if i % n = j % n then 1 else 0)) :=
  calls_addIdentity hL hp hA β

/-- **C43**, `bml_add_identity`, for one rank.  Missing: larger grids, where it is wrong. -/
theorem C43_add_identity_partial (hL : L.Exact n m kp thr Rep RepC) (hA : Holds Rep 1 n D a) (β : R) :
    ∃ D', Calls 1 (fun r => addIdentity L r (D r) β) D' ∧
      Holds Rep 1 n D' (fun i j => kp (a i j + β * Spec.one i j)) := by
  obtain ⟨D', h1, h2⟩ := C43_add_identity_value hL (by omega) hA β
  refine ⟨D', h1, fun i j hi hj => hL.congr (h2 i j hi hj) fun r s hr hs => ?_⟩
  have hi : i = 0 := by omega
  have hj : j = 0 := by omega
  subst hi; subst hj
  unfold tile Spec.one
  rw [Nat.zero_mul, Nat.zero_add, Nat.zero_add]
  beta_reduce
  rw [Nat.mod_eq_of_lt hr, Nat.mod_eq_of_lt hs]

/-- **C43 fails for `bml_add_identity`** on a `2 × 2` grid: the zero matrix plus the identity has a one
at position `(0,2)`. -/
theorem C43_add_identity_witness : ∃ D', Calls 2 (fun r => addIdentity exL r (Dense.zeroMatrix 2) 1) D' ∧
    (D' 1).getElement 0 0 = .ok 1 ∧ (Spec.one 0 2 : Int) = 0 := by
  have hz : Holds (fun A a => A.Represents 2 a) 2 2 (fun _ => (Dense.zeroMatrix 2 : Dense Int)) Spec.zero :=
    fun i j _ _ => C32_dense_zero 2
  obtain ⟨D', h1, h2⟩ := C43_add_identity_value exL_exact (by omega) hz 1
  exact ⟨D', h1, (h2 0 1 (by omega) (by omega)).get 0 0 (by omega) (by omega), rfl⟩

/-- **C43 fails for `bml_scale_add_identity`** in the same way. -/
theorem C43_scale_add_identity_value (hL : L.Exact n m kp thr Rep RepC) (hp : 0 < p)
    (hA : Holds Rep p n D a) (α β : R) :
    ∃ D', Calls p (fun r => scaleAddIdentity L r (D r) α β) D' ∧
      Holds Rep p n D' (fun i j => kp (α * a i j + β * if i % n = j % n then 1 else 0)) :=
  calls_scaleAddIdentity hL hp hA α β

/-- **C43**, `bml_scale_add_identity`, for one rank.  Missing: larger grids. -/
theorem C43_scale_add_identity_partial (hL : L.Exact n m kp thr Rep RepC) (hA : Holds Rep 1 n D a)
    (α β : R) : ∃ D', Calls 1 (fun r => scaleAddIdentity L r (D r) α β) D' ∧
      Holds Rep 1 n D' (fun i j => kp (α * a i j + β * Spec.one i j)) := by
  obtain ⟨D', h1, h2⟩ := C43_scale_add_identity_value hL (by omega) hA α β
  refine ⟨D', h1, fun i j hi hj => hL.congr (h2 i j hi hj) fun r s hr hs => ?_⟩
  have hi : i = 0 := by omega
  have hj : j = 0 := by omega
  subst hi; subst hj
  unfold tile Spec.one
  rw [Nat.zero_mul, Nat.zero_add, Nat.zero_add]
  beta_reduce
  rw [Nat.mod_eq_of_lt hr, Nat.mod_eq_of_lt hs]

/-- **C43 fails for `bml_scale_add_identity`** on a `2 × 2` grid. -/
theorem C43_scale_add_identity_witness :
    ∃ D', Calls 2 (fun r => scaleAddIdentity exL r (Dense.zeroMatrix 2) 1 1) D' ∧
      (D' 1).getElement 0 0 = .ok 1 ∧ (Spec.one 0 2 : Int) = 0 := by
  have hz : Holds (fun A a => A.Represents 2 a) 2 2 (fun _ => (Dense.zeroMatrix 2 : Dense Int)) Spec.zero :=
    fun i j _ _ => C32_dense_zero 2
  obtain ⟨D', h1, h2⟩ := C43_scale_add_identity_value exL_exact (by omega) hz 1 1
  exact ⟨D', h1, (h2 0 1 (by omega) (by omega)).get 0 0 (by omega) (by omega), rfl⟩

/-! ## Rows and diagonals -/

/-- **C43**, `bml_set_diagonal`. -/
theorem C43_set_diagonal (hL : L.Exact n m kp thr Rep RepC) (hp : 0 < p) (hA : Holds Rep p n D a)
    {d : Arr R} (hd : p * n ≤ d.size) :
    ∃ D', Calls p (fun r => setDiagonal L p (p * n) r (D r) d) D' ∧
      Holds Rep p n D' (fun i j => if i = j then kp (d.get i) else a i j) := calls_setDiagonal hL hp hA hd

example : ∃ D', Calls 2 (fun r => setDiagonal exL 2 4 r (denseTiles 2 2 exG r) ⟨4, fun k => (k : Int) + 50⟩) D' ∧
    Holds (fun A a => A.Represents 2 a) 2 2 D' (fun i j => if i = j then (i : Int) + 50 else exG i j) :=
  C43_set_diagonal exL_exact (by omega) (denseTiles_holds 2 2 exG) (by decide)

/-- **C43**, `bml_set_row`: rank `r` changes its part of the row, if any. -/
theorem C43_set_row (hL : L.Exact n m kp thr Rep RepC) (hp : 0 < p) (hA : Holds Rep p n D a)
    (k : Nat) {row : Arr R} (hrow : p * n ≤ row.size) :
    ∃ D', Calls p (fun r => setRow L p (p * n) r (D r) k row) D' ∧
      Holds Rep p n D' (fun i j => if i = k then kp (row.get j) else a i j) := calls_setRow hL hp hA k hrow

example : ∃ D', Calls 2 (fun r => setRow exL 2 4 r (denseTiles 2 2 exG r) 3 ⟨4, fun k => (k : Int) + 50⟩) D' ∧
    Holds (fun A a => A.Represents 2 a) 2 2 D' (fun i j => if i = 3 then (j : Int) + 50 else exG i j) :=
  C43_set_row exL_exact (by omega) (denseTiles_holds 2 2 exG) 3 (by decide)

/-- **C43**, `bml_get_row`, on grids of at most `2 × 2`: every rank gets the row.  Missing: larger
grids, where it is wrong. -/
theorem C43_get_row_partial (hL : L.Exact n m kp thr Rep RepC) (hp : 0 < p) (hp2 : p ≤ 2)
    (hA : Holds Rep p n D a) {k : Nat} (hk : k < p * n) (junk : Nat → R) :
    ∃ row, getRow L p (p * n) D k junk = .ok row ∧ row.size = p * n ∧ ∀ j, j < p * n → row.get j = a k j :=
  Res.wp_exists (wp_getRow hL hp hp2 hA hk junk)

example : ∃ row, getRow exL 2 4 (denseTiles 2 2 exG) 3 (fun _ => 9) = .ok row ∧ row.size = 4 ∧
    ∀ j, j < 4 → row.get j = exG 3 j :=
  C43_get_row_partial exL_exact (by omega) (by omega) (denseTiles_holds 2 2 exG) (by omega) _

omit [CommRing R] in
/-- **C43 fails for `bml_get_row`** on every grid of `3 × 3` ranks or more, for every matrix and every
row: `MPI_Allgatherv` is called with overlapping parts of the receive buffer, because the
displacements are not accumulated. -/
theorem C43_get_row_overlap (L : Local τ R) (hp : 3 ≤ p) (hn : 0 < n) (D : Nat → τ) {k : Nat}
    (hk : k < p * n) (junk : Nat → R) : getRow L p (p * n) D k junk = .ub := getRow_ub L hp hn D hk junk

example : getRow exL 3 6 (denseTiles 3 2 exG) 5 (fun _ => 9) = .ub :=
  C43_get_row_overlap exL (by omega) (n := 2) (by omega) _ (by omega) _

/-! ## Sums -/

/-- **C43**, `bml_trace`. -/
theorem C43_trace (hL : L.Exact n m kp thr Rep RepC) (hA : Holds Rep p n D a) :
    trace L p D = .ok (Spec.tr (p * n) a) := trace_eq hL hA

example : trace exL 2 (denseTiles 2 2 exG) = .ok 34 :=
  (C43_trace exL_exact (denseTiles_holds 2 2 exG)).trans (by decide)

/-- **C43**, `bml_sum_squares`. -/
theorem C43_sum_squares (hL : L.Exact n m kp thr Rep RepC) (hA : Holds Rep p n D a) :
    sumSquares L p D = .ok (Spec.total (p * n) (p * n) fun i j => a i j * a i j) := sumSquares_eq hL hA

example : sumSquares exL 2 (denseTiles 2 2 exG) = .ok 1496 :=
  (C43_sum_squares exL_exact (denseTiles_holds 2 2 exG)).trans (by decide)

end Generic

section TraceMult

variable {p n m : Nat} {a b : Spec.Mat R}

/-- **C43**, `bml_trace_mult`, dense: the sum of `a i j * b i j`, which is the trace of `A B` if `b` is
symmetric (C20). -/
theorem C43_trace_mult_dense_partial {D E : Nat → Dense R} (hA : Holds (fun A a => A.Represents n a) p n D a)
    (hB : Holds (fun A a => A.Represents n a) p n E b) {sc : Nat → Sched}
    (hsc : ∀ r, IsSched (0 * n) (n * n) (sc r)) :
    sumPairs (fun r A B => Dense.traceMult A B (sc r)) p D E =
        .ok (Spec.total (p * n) (p * n) fun i j => a i j * b i j) ∧
      (Spec.Eq (p * n) b (Spec.transpose b) →
        sumPairs (fun r A B => Dense.traceMult A B (sc r)) p D E = .ok (Spec.tr (p * n) (Spec.mul (p * n) a b))) := by
  have h := sumPairs_eq (f := fun r A B => Dense.traceMult A B (sc r)) (g := fun x y i j => x i j * y i j)
    (fun r _ _ _ _ h1 h2 => C20_dense_trace_mult_value h1 h2 (hsc r)) (fun _ _ _ _ => rfl) hA hB
  refine ⟨h, fun hs => h.trans ?_⟩
  unfold Spec.total Spec.tr Spec.mul
  congr 1
  refine Finset.sum_congr rfl fun i hi => Finset.sum_congr rfl fun j hj => ?_
  beta_reduce
  rw [hs i j (Finset.mem_range.1 hi) (Finset.mem_range.1 hj)]
  rfl

example : sumPairs (fun _ A B => Dense.traceMult A B (seqSched 0 4)) 2 (denseTiles 2 2 exG)
    (denseTiles 2 2 fun i j => exG i j + exG j i) = .ok (Spec.tr 4 (Spec.mul 4 exG fun i j => exG i j + exG j i)) :=
  (C43_trace_mult_dense_partial (denseTiles_holds 2 2 exG) (denseTiles_holds 2 2 _)
    (fun _ => isSched_seq 0 4)).2 fun i j _ _ => add_comm _ _

/-- **C43**, `bml_trace_mult`, ELLPACK: the same, if every row of every tile of `B` has an entry (C20). -/
theorem C43_trace_mult_ellpack_partial {D E : Nat → Ell R}
    (hA : Holds (fun A a => A.Represents n a ∧ A.M = m) p n D a)
    (hB : Holds (fun B b => (B.Represents n b ∧ B.M = m) ∧ ∀ i, i < n → B.nnz.get i ≠ 0) p n E b)
    {sc : Nat → Sched} (hsc : ∀ r, IsSched 0 n (sc r)) (junk : Nat → Nat → Nat → R) :
    sumPairs (fun r A B => Ell.traceMult A B (sc r) (junk r)) p D E =
        .ok (Spec.total (p * n) (p * n) fun i j => a i j * b i j) ∧
      (Spec.Eq (p * n) b (Spec.transpose b) →
        sumPairs (fun r A B => Ell.traceMult A B (sc r) (junk r)) p D E =
          .ok (Spec.tr (p * n) (Spec.mul (p * n) a b))) := by
  have h := sumPairs_eq (f := fun r A B => Ell.traceMult A B (sc r) (junk r))
    (g := fun x y i j => x i j * y i j)
    (fun r _ _ _ _ h1 h2 => C20_trace_mult_value h1.1 h2.1.1 (h1.2.trans h2.1.2.symm) (hsc r)
      (fun i hi _ => h2.2 i hi) (junk r)) (fun _ _ _ _ => rfl) hA hB
  refine ⟨h, fun hs => h.trans ?_⟩
  unfold Spec.total Spec.tr Spec.mul
  congr 1
  refine Finset.sum_congr rfl fun i hi => Finset.sum_congr rfl fun j hj => ?_
  beta_reduce
  rw [hs i j (Finset.mem_range.1 hi) (Finset.mem_range.1 hj)]
  rfl

example : sumPairs (fun _ A B => Ell.traceMult A B exSched fun _ _ => 3) 2 (fun _ => exA) (fun _ => exA) =
    .ok (Spec.total 6 6 fun i j => exE i j * exE i j) :=
  (C43_trace_mult_ellpack_partial exE_holds
    (fun i j hi hj => ⟨exE_holds i j hi hj, by decide⟩) (fun _ => exSched_ok) _).1

/-- **C43**, `bml_trace_mult`, CSR: the traces of the products of the tiles at the same place, summed.
It is the trace of the product for one rank.  Missing: larger grids, where it is wrong. -/
theorem C43_trace_mult_csr_partial {D E : Nat → Csr R}
    (hA : Holds (fun A a => A.Represents n a) 1 n D a)
    (hB : Holds (fun A a => A.Represents n a) 1 n E b) {sc : Nat → Sched} (hsc : ∀ r, IsSched 0 n (sc r)) :
    sumPairs (fun r A B => Csr.traceMult A B (sc r)) 1 D E = .ok (Spec.tr n (Spec.mul n a b)) := by
  have h1 := C20_csr_trace_mult (hA 0 0 (by omega) (by omega)) (hB 0 0 (by omega) (by omega)) (hsc 0)
  have e : ∀ x : Spec.Mat R, tile n 0 0 x = x := fun x => by
    funext r s; unfold tile; rw [Nat.zero_mul, Nat.zero_add, Nat.zero_add]
  rw [e, e] at h1
  unfold sumPairs
  rw [sumReduce_eq (g := fun _ => Spec.tr n (Spec.mul n a b))]
  · rw [Finset.sum_range_one]
  · intro r hr
    have : r = 0 := by omega
    subst this
    exact h1

example : sumPairs (fun _ A B => Csr.traceMult A B (seqSched 0 2)) 1 (fun _ => exC) (fun _ => exC) =
    .ok (Spec.tr 2 (Spec.mul 2 exCm exCm)) :=
  C43_trace_mult_csr_partial (fun i j _ _ => exC_rep.congr fun r s _ _ => by
      unfold tile
      rw [show i = 0 by omega, show j = 0 by omega]
      simp) (fun i j _ _ => exC_rep.congr fun r s _ _ => by
      unfold tile
      rw [show i = 0 by omega, show j = 0 by omega]
      simp) fun _ => isSched_seq 0 2

/-- A symmetric matrix on a `2 × 2` grid: ones at `(0,3)` and `(3,0)`. -/
def exAnti : Nat → Csr Int := fun r =>
  Csr.ofRows 2 2 fun i => if r = 1 ∧ i = 0 then [(1, 1)] else if r = 2 ∧ i = 1 then [(0, 1)] else []

def exAntiM : Spec.Mat Int := fun i j => if i = 0 ∧ j = 3 ∨ i = 3 ∧ j = 0 then 1 else 0

theorem exAnti_holds : Holds (fun A a => A.Represents 2 a) 2 2 exAnti exAntiM := by
  intro i j hi hj
  unfold exAnti
  refine (Csr.ofRows_rep (fun k hk => ?_)).congr ?_
  · have : ∀ i, i < 2 → ∀ j, j < 2 → ∀ k, k < 2 → SRow.Good 2 (if rankOf 2 i j = 1 ∧ k = 0 then [(1, (1 : Int))]
      else if rankOf 2 i j = 2 ∧ k = 1 then [(0, 1)] else []) := by decide
    exact this i hi j hj k hk
  · intro r s hr hs
    have : ∀ i, i < 2 → ∀ j, j < 2 → ∀ r, r < 2 → ∀ s, s < 2 →
      SRow.den (if rankOf 2 i j = 1 ∧ r = 0 then [(1, (1 : Int))]
        else if rankOf 2 i j = 2 ∧ r = 1 then [(0, 1)] else []) s = tile 2 i j exAntiM r s := by decide
    exact this i hi j hj r hr s hs

/-- **C43 fails for `bml_trace_mult` of CSR matrices**, even symmetric ones: the trace of the square of
the example is 2, the result is 0. -/
theorem C43_trace_mult_csr_witness :
    Holds (fun A a => A.Represents 2 a) 2 2 exAnti exAntiM ∧
    Spec.Eq 4 exAntiM (Spec.transpose exAntiM) ∧
    sumPairs (fun _ A B => Csr.traceMult A B (seqSched 0 2)) 2 exAnti exAnti = .ok 0 ∧
    Spec.tr 4 (Spec.mul 4 exAntiM exAntiM) = 2 := by
  refine ⟨exAnti_holds, ?_, by decide +kernel, by decide⟩
  intro i j hi hj
  have : ∀ i, i < 4 → ∀ j, j < 4 → exAntiM i j = Spec.transpose exAntiM i j := by decide
  exact this i hi j hj

end TraceMult

section Generic

variable {τ : Type} {L : Local τ R} {p n m : Nat} {kp thr : R → R} {Rep RepC : τ → Spec.Mat R → Prop}
  {D E : Nat → τ} {a b : Spec.Mat R}

/-! ## Import and export -/

/-- **C43**, `bml_import_from_dense`, row-major, if `N²` fits in an `int` (see `C43_export_overflow`). -/
theorem C43_import_row_major_partial (hL : L.Exact n m kp thr Rep RepC) (hp : 0 < p)
    (hN : p * n * (p * n) ≤ INT_MAX) {array : Arr R}
    (hsz : p * n * (p * n) ≤ array.size) {M : Nat} (hM : M / p = m) (hm : m ≤ n) (hm0 : 0 < m)
    (junk : Nat → R) :
    ∃ D', Calls p (importDense L .rowMajor p (p * n) M array junk) D' ∧
      Holds Rep p n D' (fun i j => kp (array.get (i * (p * n) + j))) :=
  calls_importDense hL hp hN .rowMajor hsz hM hm hm0 junk

/-- **C43**, `bml_export_to_dense`, row-major: rank 0 gets all the elements.  (The other ranks get
`NULL`.)  Partial: `N²` must fit in an `int` (`C43_export_overflow`). -/
theorem C43_export_row_major_partial (hL : L.Exact n m kp thr Rep RepC) (hp : 0 < p)
    (hN : p * n * (p * n) ≤ INT_MAX) (hA : Holds Rep p n D a)
    (junk : Nat → R) : ∃ out, exportDense L .rowMajor p (p * n) D junk = .ok out ∧
      out.size = p * n * (p * n) ∧
      ∀ i j, i < p * n → j < p * n → out.get (i * (p * n) + j) = a i j :=
  Res.wp_exists (wp_exportDense hL hp hN .rowMajor hA junk)

/-- **C43 fails** for `bml_export_to_dense` of large matrices: the offset of a tile overflows. -/
theorem C43_export_overflow (hL : L.Exact n m kp thr Rep RepC) (hp : 2 ≤ p) (hA : Holds Rep p n D a)
    (hN : INT_MAX < n * (p * n) * (p - 1)) (o : Order) (junk : Nat → R) :
    ∀ out, exportDense L o p (p * n) D junk ≠ .ok out := by
  have hp0 : 0 < p := by omega
  have hD : ∀ r, r < p * p → ∃ buf, L.exportDense r (D r) o = .ok buf := by
    intro r hr
    have h := hA (prow p r) (pcol p r) (prow_lt hr) (pcol_lt hr)
    rw [rankOf_coords] at h
    obtain ⟨buf, e, _⟩ := hL.exportDense r h o
    exact ⟨buf, e⟩
  have hr : rankOf p (p - 1) 0 < p * p := rankOf_lt (by omega) hp0
  have hoff : tileOffset p (p * n) n (rankOf p (p - 1) 0) = .ub := by
    unfold tileOffset
    have h0 : rankOf p (p - 1) 0 ≠ 0 := by
      unfold rankOf
      have := Nat.mul_pos (show 0 < p - 1 by omega) hp0
      omega
    rw [if_neg h0]
    unfold intArith
    simp only
    by_cases h1 : n * (p * n) ≤ INT_MAX
    · rw [if_pos h1, Res.bind_ok, prow_rankOf hp0, if_neg (by omega)]
      rfl
    · rw [if_neg h1]
      rfl
  have key : (exportDense L o p (p * n) D junk).wlp fun _ => False := by
    unfold exportDense
    refine Res.wlp_mono (wlp_loop (fun k (_ : Arr R) => ¬ rankOf p (p - 1) 0 < k) (Nat.not_lt_zero _)
      fun k hk s hs => ?_) fun s h => h hr
    obtain ⟨buf, e⟩ := hD k hk
    rw [e, Res.bind_ok]
    by_cases heq : k = rankOf p (p - 1) 0
    · subst heq
      simp only [Nat.mul_div_cancel_left _ hp0]
      rw [hoff]
      exact Res.wlp_ub
    · exact fun _ _ => by omega
  exact fun out h => key out h

/-- A `65538 × 65538` matrix on four ranks; each rank holds a `32769 × 32769` tile. -/
example {c : DenseRun Int} (hc : c.Ok 32769) (a : Spec.Mat Int) (out : Arr Int) :
    exportDense (denseLocal c fun x => decide (x > 5)) .rowMajor 2 (2 * 32769) (denseTiles 2 32769 a)
      (fun _ => 0) ≠ .ok out :=
  C43_export_overflow (C43_local_dense hc 1 _) (by omega) (denseTiles_holds 2 32769 a) (by decide) _ _ out

example : ∃ D' out, Calls 2 (importDense exL .rowMajor 2 4 4 ⟨16, fun q => (q : Int) + 1⟩ fun _ => 9) D' ∧
    exportDense exL .rowMajor 2 4 D' (fun _ => 8) = .ok out ∧ out.get 6 = 7 := by
  obtain ⟨D', h1, h2⟩ := C43_import_row_major_partial exL_exact (p := 2) (by omega) (by decide)
    (array := ⟨16, fun q => (q : Int) + 1⟩) (by decide) (M := 4) rfl (by omega) (by omega) fun _ => 9
  obtain ⟨out, e, -, h⟩ := C43_export_row_major_partial exL_exact (by omega) (by decide) h2 fun _ => 8
  exact ⟨D', out, h1, e, h 1 2 (by omega) (by omega)⟩

/-- **C43 fails for column-major import**: what it computes.  The elements of a tile are in their
places, but tile `(i,j)` is at place `(j,i)`. -/
theorem C43_import_col_major_value (hL : L.Exact n m kp thr Rep RepC) (hp : 0 < p)
    (hN : p * n * (p * n) ≤ INT_MAX) {array : Arr R}
    (hsz : p * n * (p * n) ≤ array.size) {M : Nat} (hM : M / p = m) (hm : m ≤ n) (hm0 : 0 < m)
    (junk : Nat → R) :
    ∃ D', Calls p (importDense L .colMajor p (p * n) M array junk) D' ∧
      Holds Rep p n D' (fun i j =>
        kp (array.get ((j / n * n + i % n) + (i / n * n + j % n) * (p * n)))) :=
  calls_importDense hL hp hN .colMajor hsz hM hm hm0 junk

/-- **C43**, column-major import, for one rank.  Missing: larger grids, where it is wrong. -/
theorem C43_import_col_major_partial (hL : L.Exact n m kp thr Rep RepC) (hN : n * n ≤ INT_MAX) {array : Arr R}
    (hsz : n * n ≤ array.size) (hm : m ≤ n) (hm0 : 0 < m) (junk : Nat → R) :
    ∃ D', Calls 1 (importDense L .colMajor 1 n m array junk) D' ∧
      Holds Rep 1 n D' (fun i j => kp (array.get (i + j * n))) := by
  obtain ⟨D', h1, h2⟩ := C43_import_col_major_value hL (p := 1) (by omega) (by rw [Nat.one_mul]; exact hN) (array := array)
    (by rw [Nat.one_mul]; exact hsz) (Nat.div_one m) hm hm0 junk
  rw [Nat.one_mul] at h1 h2
  refine ⟨D', h1, fun i j hi hj => hL.congr (h2 i j hi hj) fun r s hr hs => ?_⟩
  have hi : i = 0 := by omega
  have hj : j = 0 := by omega
  subst hi; subst hj
  unfold tile
  rw [Nat.zero_mul, Nat.zero_add, Nat.zero_add]
  beta_reduce
  rw [Nat.mod_eq_of_lt hr, Nat.mod_eq_of_lt hs,
    Nat.div_eq_of_lt hr, Nat.div_eq_of_lt hs, Nat.zero_mul, Nat.zero_add, Nat.zero_add]

/-- **C43**, column-major export: the tiles are exchanged again, so that import and export in
column-major order give back the array. -/
theorem C43_col_major_round_trip_partial (hL : L.Exact n m kp thr Rep RepC) (hp : 0 < p)
    (hN : p * n * (p * n) ≤ INT_MAX) {array : Arr R}
    (hsz : p * n * (p * n) ≤ array.size) {M : Nat} (hM : M / p = m) (hm : m ≤ n) (hm0 : 0 < m)
    (junk junk' : Nat → R) :
    ∃ D' out, Calls p (importDense L .colMajor p (p * n) M array junk) D' ∧
      exportDense L .colMajor p (p * n) D' junk' = .ok out ∧
      ∀ i j, i < p * n → j < p * n → out.get (i + j * (p * n)) = kp (array.get (i + j * (p * n))) := by
  obtain ⟨D', h1, h2⟩ := C43_import_col_major_value hL hp hN hsz hM hm hm0 junk
  obtain ⟨out, e, -, h3⟩ := Res.wp_exists (wp_exportDense hL hp hN .colMajor h2 junk')
  refine ⟨D', out, h1, e, fun i j hi hj => (h3 i j hi hj).trans ?_⟩
  have hn : 0 < n := by omega
  have hd : ∀ x y, (x / n * n + y % n) / n = x / n := fun x y => by
    rw [Nat.add_comm, Nat.add_mul_div_right _ _ hn, Nat.div_eq_of_lt (Nat.mod_lt _ hn), Nat.zero_add]
  have hmo : ∀ x y, (x / n * n + y % n) % n = y % n := fun x y => by
    rw [Nat.mul_add_mod', Nat.mod_mod]
  show kp (array.get (((i / n * n + j % n) / n * n + (j / n * n + i % n) % n) +
    ((j / n * n + i % n) / n * n + (i / n * n + j % n) % n) * (p * n))) = _
  rw [hd, hd, hmo, hmo, Nat.div_add_mod', Nat.div_add_mod']

/-- **C43 fails for column-major import** on a `2 × 2` grid: element `(0,2)` of the array is at
position `(2,0)` of the matrix. -/
theorem C43_import_col_major_witness :
    ∃ D', Calls 2 (importDense exL .colMajor 2 4 4 ⟨16, fun q => (q : Int)⟩ fun _ => 9) D' ∧
      (D' 2).getElement 0 0 = .ok 8 ∧ (D' 1).getElement 0 0 = .ok 2 ∧
      Order.addr .colMajor 0 2 4 = 8 := by
  obtain ⟨D', h1, h2⟩ := C43_import_col_major_value exL_exact (p := 2) (by omega) (by decide)
    (array := ⟨16, fun q => (q : Int)⟩) (by decide) (M := 4) rfl (by omega) (by omega) fun _ => 9
  exact ⟨D', h1, (h2 1 0 (by omega) (by omega)).get 0 0 (by omega) (by omega),
    (h2 0 1 (by omega) (by omega)).get 0 0 (by omega) (by omega), rfl⟩

/-! ## Transposition -/

/-- **C43**, `bml_transpose_new`: every execution ends after at most `3 p²` steps, and then every rank
has its tile of the transpose in `B`, and still its tile of `A`. -/
theorem C43_transpose_new (hL : L.Exact n m kp thr Rep RepC) (hA : Holds Rep p n D a) {M : Nat}
    (hM : M / p = m) {can : Conf (Res (τ × τ)) (Res τ) → Nat → Prop}
    (hcan : ∀ c r, (transposeNewNet L p).Ready c r → can c r) {k : Nat} {conf : Conf (Res (τ × τ)) (Res τ)}
    (h : (transposeNewNet L p).Reach can (transposeStart L p M D) k conf) :
    k ≤ 3 * (p * p) ∧ ((¬ ∃ conf', (transposeNewNet L p).Step can conf conf') →
      ∀ i j, i < p → j < p → ∃ A B, conf.st (rankOf p i j) = .ok (A, B) ∧
        Rep A (tile n i j a) ∧ Rep B (tile n i j (Spec.transpose a))) := by
  obtain ⟨h1, h2⟩ := Net.Reach.correct (transposeNew_matched L p) hcan h
  refine ⟨by simpa [transposeNewNet] using h1, fun hs i j hi hj => ?_⟩
  obtain ⟨t, e, ht1, ht2⟩ := transposeNew_sync hL hA hM hi hj
  exact ⟨t.1, t.2, ((h2 hs _ (rankOf_lt hi hj)).2.1).trans e, ht1, ht2⟩

/-- **C43**, `bml_transpose`: the same, in place. -/
theorem C43_transpose (hL : L.Exact n m kp thr Rep RepC) (hA : Holds Rep p n D a) {M : Nat}
    (hM : M / p = m) {can : Conf (Res (τ × τ)) (Res τ) → Nat → Prop}
    (hcan : ∀ c r, (transposeNet L p).Ready c r → can c r) {k : Nat} {conf : Conf (Res (τ × τ)) (Res τ)}
    (h : (transposeNet L p).Reach can (transposeStart L p M D) k conf) :
    k ≤ 3 * (p * p) ∧ ((¬ ∃ conf', (transposeNet L p).Step can conf conf') →
      ∀ i j, i < p → j < p → ∃ A B, conf.st (rankOf p i j) = .ok (A, B) ∧
        Rep A (tile n i j (Spec.transpose a))) := by
  obtain ⟨h1, h2⟩ := Net.Reach.correct (transpose_matched L p) hcan h
  refine ⟨by simpa [transposeNet] using h1, fun hs i j hi hj => ?_⟩
  obtain ⟨t, e, ht⟩ := transpose_sync hL hA hM hi hj
  exact ⟨t.1, t.2, ((h2 hs _ (rankOf_lt hi hj)).2.1).trans e, ht⟩

example : ∃ k conf, (transposeNewNet exL 2).Reach (fun _ _ => True)
      (transposeStart exL 2 4 (denseTiles 2 2 exG)) k conf ∧
    (∃ A B, conf.st 1 = .ok (A, B) ∧ A.getElement 0 1 = .ok 4 ∧ B.getElement 0 1 = .ok 13) := by
  obtain ⟨k, conf, h, hs⟩ := Net.exists_final (transposeNew_matched exL 2) (can := fun _ _ => True)
    (fun _ _ _ => trivial) (transposeStart exL 2 4 (denseTiles 2 2 exG))
  obtain ⟨A, B, e, h1, h2⟩ := (C43_transpose_new exL_exact (denseTiles_holds 2 2 exG) rfl
    (fun _ _ _ => trivial) h).2 hs 0 1 (by omega) (by omega)
  exact ⟨k, conf, h, A, B, e, h1.get 0 1 (by omega) (by omega), h2.get 0 1 (by omega) (by omega)⟩

example : ∃ k conf, (transposeNet (csrLocal exSRun (fun x => decide (x ≠ 0)) (fun x => decide (x ≠ 0))
      (fun x => decide (x ≠ 0))) 2).Reach (fun _ _ => True)
      (transposeStart (csrLocal exSRun (fun x => decide (x ≠ 0)) (fun x => decide (x ≠ 0))
      (fun x => decide (x ≠ 0))) 2 4 (fun _ => exC)) k conf ∧
    (∃ A B, conf.st 2 = .ok (A, B) ∧ A.getElement 1 0 = .ok (exCm 0 1)) := by
  obtain ⟨k, conf, h, hs⟩ := Net.exists_final (transpose_matched (csrLocal exSRun (fun x => decide (x ≠ 0))
    (fun x => decide (x ≠ 0)) (fun x => decide (x ≠ 0))) 2) (can := fun _ _ => True)
    (fun _ _ _ => trivial) (transposeStart _ 2 4 (fun _ => exC))
  obtain ⟨A, B, e, h1⟩ := (C43_transpose exSRun_exact exCE_holds rfl
    (fun _ _ _ => trivial) h).2 hs 1 0 (by omega) (by omega)
  exact ⟨k, conf, h, A, B, e, h1.1.get 1 0 (by omega) (by omega)⟩

end Generic

/-! ## Spectral bounds -/

section Gersh

variable {K : Type} [Field K] [LinearOrder K] {τ : Type} {p n m : Nat} {Rep : τ → Spec.Mat R → Prop}
  {D : Nat → τ} {a : Spec.Mat R} {off : Nat → Bool → τ → Res (Arr K)} {diag : Nat → τ → Res (Arr R)}

/-- **C43**, `bml_gershgorin`: the bounds are those of the circles of the global matrix.  `diag` is
`bml_get_diagonal`, `off` is `bml_accumulate_offdiag` of the local format (C05, C22). -/
theorem C43_gershgorin (hdiag : ∀ r {A x}, Rep A x → ∃ d, diag r A = .ok d ∧ d.size = n ∧
      ∀ i, i < n → d.get i = x i i) {absv : R → K}
    (hoff : ∀ r incl {A x}, Rep A x → ∃ s, off r incl A = .ok s ∧ s.size = n ∧ ∀ i, i < n →
      s.get i = Spec.radius absv n x i + if incl = true then absv (x i i) else 0)
    (hp : 0 < p) (hA : Holds Rep p n D a) (re : R → K) (top bot : K) :
    ∃ e, gershgorin diag off re top bot p (p * n) D = .ok e ∧
      Ell.IsMinOf top 0 (p * n) (fun k => re (a k k) - Spec.radius absv (p * n) a k) e.1 ∧
      Ell.IsMaxOf bot 0 (p * n) (fun k => re (a k k) + Spec.radius absv (p * n) a k) e.2 :=
  gershgorin_spec hdiag hoff hp hA re top bot

/-- The dense functions meet the conditions. -/
theorem C43_gershgorin_dense {D : Nat → Dense R} (hp : 0 < p)
    (hA : Holds (fun A a => A.Represents n a) p n D a) (absv re : R → K) (top bot : K)
    (junk : Nat → Nat → R) :
    ∃ e, gershgorin (fun r A => Dense.getDiagonal A (junk r)) (fun _ incl A => A.accumulateOffdiag absv incl)
        re top bot p (p * n) D = .ok e ∧
      Ell.IsMinOf top 0 (p * n) (fun k => re (a k k) - Spec.radius absv (p * n) a k) e.1 ∧
      Ell.IsMaxOf bot 0 (p * n) (fun k => re (a k k) + Spec.radius absv (p * n) a k) e.2 :=
  C43_gershgorin (fun r _ _ h => Res.wp_exists (Dense.wp_getDiagonal (E := False) (Dense.represents_iff.1 h)
    (junk r))) (fun r incl _ _ h => C22_dense_accumulate_offdiag h absv incl) hp hA re top bot

/-- The ELLPACK functions meet the conditions. -/
theorem C43_gershgorin_ellpack [IsStrictOrderedRing K] {D : Nat → Ell R} (hp : 0 < p)
    (hA : Holds (fun A a => A.Represents n a) p n D a) (abv : AbsoluteValue R K) (re : R → K) (top bot : K) :
    ∃ e, gershgorin (fun _ A => A.getDiagonal) (fun _ incl A => Ell.accumulateOffdiag A abv incl)
        re top bot p (p * n) D = .ok e ∧
      Ell.IsMinOf top 0 (p * n) (fun k => re (a k k) - Spec.radius abv (p * n) a k) e.1 ∧
      Ell.IsMaxOf bot 0 (p * n) (fun k => re (a k k) + Spec.radius abv (p * n) a k) e.2 :=
  C43_gershgorin (diag := fun _ A => Ell.getDiagonal A)
    (off := fun _ incl A => Ell.accumulateOffdiag A abv incl)
    (fun _ _ _ h => C05_get_diagonal h) (fun _ incl _ _ h => C22_accumulate_offdiag h abv incl)
    hp hA re top bot

/-- The CSR functions meet the conditions. -/
theorem C43_gershgorin_csr {D : Nat → Csr R} (hp : 0 < p)
    (hA : Holds (fun A a => A.Represents n a) p n D a) (absv re : R → K) (h0 : absv 0 = 0) (top bot : K) :
    ∃ e, gershgorin (fun _ A => A.getDiagonal) (fun _ incl A => A.accumulateOffdiag absv incl)
        re top bot p (p * n) D = .ok e ∧
      Ell.IsMinOf top 0 (p * n) (fun k => re (a k k) - Spec.radius absv (p * n) a k) e.1 ∧
      Ell.IsMaxOf bot 0 (p * n) (fun k => re (a k k) + Spec.radius absv (p * n) a k) e.2 :=
  C43_gershgorin (diag := fun _ A => Csr.getDiagonal A)
    (off := fun _ incl A => Csr.accumulateOffdiag A absv incl) (fun _ _ _ h => C05_csr_get_diagonal h)
    (fun _ incl _ _ h => C22_csr_accumulate_offdiag h absv h0 incl) hp hA re top bot

/-- A rational matrix on a `2 × 2` grid. -/
def exQG : Spec.Mat Rat := fun i j => (i : Rat) * 4 + j + 1

example : ∃ e, gershgorin (fun _ A => Dense.getDiagonal A fun _ => 3)
      (fun _ incl A => A.accumulateOffdiag (fun x => |x|) incl)
        (fun x => x) 1000 0 2 4 (denseTiles 2 2 exQG) = .ok e ∧
      Ell.IsMaxOf 0 0 4 (fun k => exQG k k + Spec.radius (fun x => |x|) 4 exQG k) e.2 := by
  obtain ⟨e, h1, -, h2⟩ := C43_gershgorin_dense (by omega) (denseTiles_holds 2 2 exQG) (fun x => |x|)
    (fun x => x) 1000 0 (fun _ _ => 3)
  exact ⟨e, h1, h2⟩

omit [LinearOrder K] in
/-- **C43**, `bml_normalize` (threshold 0): the tiles of `(maxeval I - A) / (maxeval - mineval)`. -/
theorem C43_normalize {L : Local τ K} {kp thr : K → K} {Rep RepC : τ → Spec.Mat K → Prop} {a : Spec.Mat K}
    (hL : L.Exact n m kp thr Rep RepC) (hkp : ∀ x, kp x = x) (hp : 0 < p) (hA : Holds Rep p n D a)
    (mn mx : K) : ∃ D', Calls p (fun r => normalize L p r (D r) mn mx) D' ∧
      Holds Rep p n D' (fun i j => ((if i = j then mx else 0) - a i j) / (mx - mn)) :=
  calls_normalize hL hkp hp hA mn mx

example : ∃ D', Calls 2 (fun r => normalize (denseLocal (⟨fun _ => seqSched 0 2, fun _ => seqSched 0 4,
      fun _ => seqSched 0 1, fun _ _ => (7 : Rat)⟩) fun _ => true) 2 r (denseTiles 2 2 exQG r) 0 34) D' ∧
    Holds (fun A a => A.Represents 2 a) 2 2 D' (fun i j => ((if i = j then 34 else 0) - exQG i j) / (34 - 0)) :=
  C43_normalize (C43_local_dense ⟨fun _ => isSched_seq 0 2, fun _ => isSched_seq 0 4,
    fun _ => isSched_seq 0 1⟩ 2 _) (fun _ => rfl) (by omega) (denseTiles_holds 2 2 exQG) 0 34

end Gersh

end Bml.Props
