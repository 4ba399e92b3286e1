import Verif.Dist.Collect
import Verif.Dist.Message
import Verif.Dist.Grid
import Verif.Ellpack.Submatrix
import Verif.Csr.Model2
import Verif.Dense.Model
import Verif.Ellpack.MatrixMarket

/-!
# Files of 2-D distributed matrices

`bml_read_bml_matrix_distributed2d` and `bml_write_bml_matrix_distributed2d`,
`src/C-interface/distributed2d/bml_utilities_distributed2d.c`.  The file is read and written by rank 0,
which has the whole matrix in one local matrix.  The functions of the local format are parameters
(`FileOps`).
-/

namespace Bml.Dist

variable {τ R : Type}

/-- The functions of the local format that are called.  The first argument of `zero`, `bcast`,
`extract` and `copy` is the rank; the first argument of `noinit` is the rank whose tile goes into the
new matrix (0 for the whole matrix).  `deliver C A` is what `bml_mpi_recv(C)` leaves when the other
side calls `bml_mpi_send(A)`; `bcast r B Z` is what the broadcast leaves of the matrix `B` on rank `r`
if the matrix on rank 0 is `Z`. -/
structure FileOps (τ : Type) where
  zero : Nat → Nat → Nat → Res τ
  noinit : Nat → Nat → Nat → Res τ
  deliver : τ → τ → Res τ
  assign : τ → τ → Nat → Nat → Res τ
  extract : Nat → τ → Nat → Nat → Nat → Nat → Res τ
  bcast : Nat → τ → τ → Res τ
  copy : Nat → τ → τ → Res τ
  read : τ → List Char → Res τ
  write : τ → Res (List Char)

/-- `bml_write_bml_matrix_distributed2d`, lines 112-125 on rank 0 and 134 on the others. -/
def writeNet (F : FileOps τ) (p N M : Nat) (D : Nat → τ) : Coll (Res τ) τ where
  P := p * p
  pay r := D r
  fin k s A := do
    let B ← s
    let C ← F.noinit k (N / p) (M / p)
    let C ← F.deliver C A
    F.assign B C (k / p * (N / p)) (k % p * (N / p))

/-- Lines 103-111: the matrix `B` of rank 0 before it receives.  (The case of block-ELLPACK, lines
89-102, is in `Dist/EllbFiles.lean`.) -/
def writeStart (F : FileOps τ) (N M : Nat) (D : Nat → τ) : Res τ := do
  let B ← F.noinit 0 N M
  F.assign B (D 0) 0 0

/-- Line 128: what rank 0 writes when it has all tiles. -/
def writeEnd (F : FileOps τ) (s : Res τ) : Res (List Char) := do
  let B ← s
  F.write B

/-- Lines 45-52 on rank 0: the whole matrix, read from the file. -/
def readRoot (F : FileOps τ) (N M : Nat) (file : List Char) : Res τ := do
  let Z ← F.zero 0 N M
  F.read Z file

/-- Lines 45-46: the matrix `B` on a rank before the broadcast. -/
def readStart (F : FileOps τ) (N M : Nat) (file : List Char) (r : Nat) : Res τ :=
  if r = 0 then readRoot F N M file else F.zero r N M

/-- `bml_read_bml_matrix_distributed2d`, lines 16-66, on rank `r`, whose local matrix is `A`.  (The
case of block-ELLPACK, lines 32-43, is in `Dist/EllbFiles.lean`.) -/
def readFile (F : FileOps τ) (p N M : Nat) (file : List Char) (r : Nat) (A : τ) : Res τ := do
  let B ← readStart F N M file r
  let Z ← readRoot F N M file
  let B ← F.bcast r B Z
  let C ← F.extract r B (prow p r * (N / p)) (pcol p r * (N / p)) (N / p) (M / p)
  F.copy r C A

/-- Dense local matrices.  `junk` is uninitialised memory, `nz v` the test `|v| > 0` of the writer. -/
def denseFiles [CommRing R] (f : Mm.Fmt R) (nz : R → Bool) (junk : Nat → Nat → R) : FileOps (Dense R) where
  zero _ N _ := pure (Dense.zeroMatrix N)
  noinit k N _ := pure (Dense.noinit N (junk k))
  deliver C A := Dense.deliver C A
  assign A B irow icol := A.assignSubmatrix B irow icol
  extract _ A irow icol n _ := A.extractSubmatrix irow icol n
  bcast r B Z := if r = 0 then pure B else Dense.deliver B Z
  copy _ C A := C.bmlCopy A
  read A file := A.readMm f file
  write A := A.writeMm f nz

/-- ELLPACK local matrices.  `jv`, `ji` are uninitialised memory, `sc r` is the schedule of the parallel
loop of `bml_copy` on rank `r`. -/
def ellFiles [CommRing R] (f : Mm.Fmt R) (jv : Nat → Nat → R) (ji : Nat → Nat → Nat) (sc : Nat → Sched) :
    FileOps (Ell R) where
  zero _ N M := Ell.newZero N M
  noinit k N M := pure (Ell.noinit N M (jv k) (ji k))
  deliver C A := Ell.deliver C A
  assign A B irow icol := A.assignSubmatrix B irow icol
  extract _ A irow icol n m := A.extractSubmatrix irow icol n m
  bcast r B Z := if r = 0 then pure B else Ell.deliver B Z
  copy r C A := C.bmlCopy A (sc r)
  read A file := A.readMm f file
  write A := A.writeMm f

/-- CSR local matrices.  `big0 x` is the test `|x| > 0`. -/
def csrFiles [CommRing R] (f : Mm.Fmt R) (big0 : R → Bool) (jv : Nat → Nat → Nat → R)
    (ji : Nat → Nat → Nat → Nat) (sc : Nat → Sched) : FileOps (Csr R) where
  zero _ N M := pure (Csr.newZero N M)
  noinit k N M := pure (Csr.noinit N M (jv k) (ji k))
  deliver C A := Csr.deliverBlocking C A
  assign A B irow icol := A.assignSubmatrix B irow icol
  extract r A irow icol n m := A.extractSubmatrix irow icol n m big0 (jv r 0) (ji r 0)
  bcast _ B Z := do
    let m ← Z.mpiSend
    B.mpiBcast m big0
  copy r C A := C.copyInto A (sc r)
  read A file := A.readMm f file
  write A := A.writeMm f

/-! ## The tile that a position is in -/

/-- The rank that has position `(i,j)`. -/
def tileAt (p n i j : Nat) : Nat := i / n * p + j / n

theorem tileAt_lt {p n i j : Nat} (hi : i < p * n) (hj : j < p * n) : tileAt p n i j < p * p := by
  have h1 : i / n < p := Nat.div_lt_of_lt_mul (by rw [Nat.mul_comm]; exact hi)
  have h2 : j / n < p := Nat.div_lt_of_lt_mul (by rw [Nat.mul_comm]; exact hj)
  exact rankOf_lt h1 h2

theorem window_iff {p n k i j : Nat} (hn : 0 < n) (hj : j < p * n) :
    (k / p * n ≤ i ∧ i < k / p * n + n) ∧ (k % p * n ≤ j ∧ j < k % p * n + n) ↔ tileAt p n i j = k := by
  have hp : 0 < p := Nat.pos_of_ne_zero (by rintro rfl; omega)
  have h2 : j / n < p := Nat.div_lt_of_lt_mul (by rw [Nat.mul_comm]; exact hj)
  unfold tileAt
  constructor
  · rintro ⟨⟨h3, h4⟩, h5, h6⟩
    have e1 : i / n = k / p := Nat.div_eq_of_lt_le h3 (by rw [Nat.succ_mul]; exact h4)
    have e2 : j / n = k % p := Nat.div_eq_of_lt_le h5 (by rw [Nat.succ_mul]; exact h6)
    rw [e1, e2, Nat.mul_comm]
    exact Nat.div_add_mod k p
  · rintro rfl
    rw [Nat.mul_add_mod', Nat.mod_eq_of_lt h2, Nat.add_comm, Nat.add_mul_div_right _ _ hp,
      Nat.div_eq_of_lt h2, Nat.zero_add]
    refine ⟨⟨Nat.div_mul_le_self _ _, ?_⟩, Nat.div_mul_le_self _ _, ?_⟩
    · exact Nat.lt_div_mul_add hn
    · exact Nat.lt_div_mul_add hn

/-- The matrix with the first `k` tiles of `a` in `b`. -/
def tilesTo (p n k : Nat) (a b : Spec.Mat R) : Spec.Mat R := fun i j =>
  if tileAt p n i j < k then a i j else b i j

theorem tilesTo_step {p n k : Nat} (hn : 0 < n) (a b : Spec.Mat R) {i j : Nat} (hj : j < p * n) :
    (if (k / p * n ≤ i ∧ i < k / p * n + n) ∧ (k % p * n ≤ j ∧ j < k % p * n + n) then
      tile n (k / p) (k % p) a (i - k / p * n) (j - k % p * n) else tilesTo p n k a b i j) =
      tilesTo p n (k + 1) a b i j := by
  by_cases h : (k / p * n ≤ i ∧ i < k / p * n + n) ∧ (k % p * n ≤ j ∧ j < k % p * n + n)
  · rw [if_pos h]
    have := (window_iff hn hj).1 h
    unfold tilesTo tile
    rw [if_pos (by omega)]
    congr 1 <;> omega
  · rw [if_neg h]
    have : tileAt p n i j ≠ k := fun e => h ((window_iff hn hj).2 e)
    unfold tilesTo
    by_cases h2 : tileAt p n i j < k
    · rw [if_pos h2, if_pos (by omega)]
    · rw [if_neg h2, if_neg (by omega)]

theorem tilesTo_all {p n : Nat} (a b : Spec.Mat R) {i j : Nat} (hi : i < p * n) (hj : j < p * n) :
    tilesTo p n (p * p) a b i j = a i j := if_pos (tileAt_lt hi hj)

/-- A tile ends inside the matrix. -/
theorem window_le {p n q : Nat} (hq : q < p) : q * n + n ≤ p * n := by
  rw [← Nat.succ_mul]
  exact Nat.mul_le_mul_right _ hq

theorem coords {p k : Nat} (hk : k < p * p) : k / p < p ∧ k % p < p ∧ rankOf p (k / p) (k % p) = k := by
  have hp : 0 < p := Nat.pos_of_ne_zero (by rintro rfl; omega)
  refine ⟨Nat.div_lt_of_lt_mul hk, Nat.mod_lt _ hp, ?_⟩
  unfold rankOf
  rw [Nat.mul_comm]
  exact Nat.div_add_mod k p

/-- The matrix of rank 0 after all messages. -/
theorem writeNet_after {F : FileOps τ} {p N M : Nat} {D : Nat → τ} (hp : 0 < p) (Acc : Nat → τ → Prop)
    (h0 : ∃ B, writeStart F N M D = .ok B ∧ Acc 1 B)
    (hs : ∀ k B, 0 < k → k < p * p → Acc k B →
      ∃ B', (writeNet F p N M D).fin k (.ok B) (D k) = .ok B' ∧ Acc (k + 1) B') :
    ∃ B, (writeNet F p N M D).after (writeStart F N M D) ((writeNet F p N M D).P - 1) = .ok B ∧
      Acc (p * p) B := by
  have hpp : 0 < p * p := Nat.mul_pos hp hp
  have key : ∀ k, k < p * p → ∃ B, (writeNet F p N M D).after (writeStart F N M D) k = .ok B ∧
      Acc (k + 1) B := by
    intro k
    induction k with
    | zero => exact fun _ => h0
    | succ k ih =>
      intro hk
      obtain ⟨B, e, h⟩ := ih (by omega)
      obtain ⟨B', e', h'⟩ := hs (k + 1) B (by omega) hk h
      exact ⟨B', by rw [Coll.after, e]; exact e', h'⟩
  obtain ⟨B, e, h⟩ := key (p * p - 1) (by omega)
  rw [show p * p - 1 + 1 = p * p by omega] at h
  exact ⟨B, e, h⟩

end Bml.Dist
