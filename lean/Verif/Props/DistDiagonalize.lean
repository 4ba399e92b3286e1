import Verif.Dist.Diagonalize
import Verif.Props.Diagonalize
import Verif.Props.EllTranspose
import Verif.Props.EllConstruct
import Verif.Props.Csr2
import Verif.Props.Ellblock5
import Verif.Props.Ellblock7

/-!
# C75: `bml_diagonalize` of 2-D distributed matrices
-/

namespace Bml.Props

open Bml Bml.Lapack

variable {K : Type} [RCLike K]

omit [RCLike K] in
theorem holds_rep {p n : Nat} {D : Nat → Dense K} {a : Spec.Mat K} :
    Dist.Holds (fun A a => A.Represents n a) p n D a ↔ Dist.Holds (fun A a => A.Rep n a) p n D a := by
  unfold Dist.Holds
  simp only [Dense.represents_iff]

/-- A real symmetric matrix is seen as it is. -/
theorem seen_real {n N : Nat} {a g : Spec.Mat ℝ} (hs : Symmetric N a)
    (h1 : ∀ i j, i < N → j < N → g i j = if i / n = j / n then a j i else a i j) :
    Spec.Eq N (Dist.upperPart g) a := by
  have hg : ∀ i j, i < N → j < N → g i j = a i j := fun i j hi hj => by
    rw [h1 i j hi hj, hs j i hj hi, ite_self]
  intro i j hi hj
  unfold Dist.upperPart
  rcases lt_trichotomy i j with h | rfl | h
  · rw [if_pos h, hg i j hi hj]
  · rw [if_neg (lt_irrefl i), if_pos rfl, hg i i hi hi]
    rfl
  · rw [if_neg (by omega), if_neg (by omega), hg j i hj hi, star_trivial, hs j i hj hi]

/-- **C75**, distributed matrices with dense tiles, real elements: on a grid of any size, for a symmetric
matrix, every rank gets the eigenvalues in ascending order, and the tiles of `V` are those of a matrix whose
columns are orthonormal eigenvectors.  The call is an error only if ScaLAPACK reports a failure. -/
theorem C75_distributed_real {ev : Dist.PEigen ℝ} (hev : Dist.PDiagonalizes ev) {p n : Nat} (hp : 0 < p)
    (hn : 0 < n) {sc sc' : Nat → Sched}
    (hsc : ∀ r, r < p * p → IsSched 0 (n - 1) (sc r) ∧ IsSched 0 (n - 1) (sc' r)) (junk : Nat → Nat → ℝ)
    {A V : Nat → Dense ℝ} {a v0 : Spec.Mat ℝ} (hA : Dist.Holds (fun A a => A.Represents n a) p n A a)
    (hV : Dist.Holds (fun A a => A.Represents n a) p n V v0) (hs : Symmetric (p * n) a)
    {w : Nat → Arr ℝ} (hw : ∀ r, r < p * p → p * n ≤ (w r).size) :
    (Dist.diagonalize ev p (p * n) sc sc' junk A V w).wp (∃ x, ev p n x = none) (fun o => ∃ l v,
      (∀ r, r < p * p → Eigenvalues (p * n) (o r).1 l) ∧
      Dist.Holds (fun A a => A.Represents n a) p n (fun r => (o r).2) v ∧ Spectral (p * n) a l v) := by
  refine Res.wp_mono (Dist.wp_diagonalize hev hp hn hsc junk (holds_rep.1 hA) (holds_rep.1 hV) hw) ?_
  rintro o ⟨l, v, g, h1, h2, h3, h4⟩
  exact ⟨l, v, h2, holds_rep.2 h3, h4.congr (seen_real hs h1)⟩

/-- **C75**, distributed matrices with tiles of another format that converts and transposes rightly. -/
theorem distributed_via {τ : Type} {T : Dist.TileOps τ ℝ} {n : Nat} {Rep RepO : τ → Spec.Mat ℝ → Prop}
    (hT : T.Exact n Rep RepO) {ev : Dist.PEigen ℝ} (hev : Dist.PDiagonalizes ev) {p : Nat} (hp : 0 < p)
    (hn : 0 < n) {sc : Nat → Sched} (hsc : ∀ r, r < p * p → IsSched 0 (n - 1) (sc r))
    {A V : Nat → τ} {a v0 : Spec.Mat ℝ} (hA : Dist.Holds Rep p n A a)
    (hV : Dist.Holds Rep p n V v0) (hs : Symmetric (p * n) a)
    {w : Nat → Arr ℝ} (hw : ∀ r, r < p * p → p * n ≤ (w r).size) :
    (Dist.diagonalizeVia T ev p (p * n) sc A V w).wp (∃ x, ev p n x = none) (fun o => ∃ l v,
      (∀ r, r < p * p → Eigenvalues (p * n) (o r).1 l) ∧
      Dist.Holds Rep p n (fun r => (o r).2) v ∧ Spectral (p * n) a l v) := by
  refine Res.wp_mono (Dist.wp_diagonalizeVia hT hev hp hn hsc hA hV hw) ?_
  rintro o ⟨l, v, g, h1, h2, h3, h4⟩
  exact ⟨l, v, h2, h3, h4.congr (seen_real hs h1)⟩

theorem ellTileOps_exact {n m : Nat} (hm : n ≤ m) (h0 : 0 < m) :
    (Dist.ellTileOps (K := K) m).Exact n (fun A a => A.Represents n a)
      (fun A a => A.Represents n a ∧ A.M = m) where
  congr h e := h.congr e
  toDense _ A a hA := by
    obtain ⟨D, e, h⟩ := C29_ellpack_to_dense hA
    refine ⟨D, ?_, Dense.represents_iff.1 h⟩
    show Dense.convertFrom _ A.N = _
    rw [hA.dim]
    exact e
  fromDense _ D a hD := by
    obtain ⟨B, e, h1, h2⟩ := C29_convert_partial (get := fun i j => D.getElement i j) h0 hm
      (fun i j hi hj => (Dense.represents_iff.2 hD).get i j hi hj)
    refine ⟨B, ?_, h2, h1⟩
    show Ell.convertFrom _ D.N m = _
    rw [hD.dim]
    exact e
  transpose _ A a hA := by
    obtain ⟨B, e, -, h⟩ := C18_transpose_wide hA.1 (by rw [hA.2]; exact hm)
    exact ⟨B, e, h⟩

theorem csrTileOps_exact {n : Nat} (m : Nat) {big0 : K → Bool} (h0 : ∀ x, big0 x = false → x = 0)
    (jr : Nat → Nat → K) (junk : Nat → Nat → Nat) :
    (Dist.csrTileOps m big0 jr junk).Exact n (fun A a => A.Represents n a) (fun A a => A.Represents n a) where
  congr h e := h.congr e
  toDense _ A a hA := by
    obtain ⟨D, e, h⟩ := C29_convert_dense (N := n) (get := fun i j => A.getElement i j) (a := a)
      fun i j hi hj => hA.get i j hi hj
    refine ⟨D, ?_, Dense.represents_iff.1 h⟩
    show Dense.convertFrom _ A.N = _
    rw [hA.dim]
    exact e
  fromDense r D a hD := by
    obtain ⟨B, e, -, h⟩ := C29_convert_csr (M := m) (a := a)
      (fun i hi => C04_dense_get_row (Dense.represents_iff.2 hD) hi (jr r)) big0 h0 (junk r)
    refine ⟨B, ?_, h⟩
    show Csr.convertFrom _ D.N m _ _ = _
    rw [hD.dim]
    exact e
  transpose _ A a hA := by
    obtain ⟨B, e, -, h, -⟩ := C18_csr_transpose hA
    exact ⟨B, e, h⟩

/-- **C75 (partial)**, distributed matrices with ELLPACK tiles, real elements: right if the rows of the tiles
have room for all columns.  Missing: see `C75_distributed_ellpack_narrow`. -/
theorem C75_distributed_ellpack_partial {ev : Dist.PEigen ℝ} (hev : Dist.PDiagonalizes ev) {p n M : Nat}
    (hp : 0 < p) (hn : 0 < n) (hM : n ≤ M / p) {sc : Nat → Sched}
    (hsc : ∀ r, r < p * p → IsSched 0 (n - 1) (sc r)) {A V : Nat → Ell ℝ} {a v0 : Spec.Mat ℝ}
    (hA : Dist.Holds (fun A a => A.Represents n a) p n A a)
    (hV : Dist.Holds (fun A a => A.Represents n a) p n V v0) (hs : Symmetric (p * n) a)
    {w : Nat → Arr ℝ} (hw : ∀ r, r < p * p → p * n ≤ (w r).size) :
    (Dist.diagonalizeVia (Dist.ellTileOps (M / p)) ev p (p * n) sc A V w).wp (∃ x, ev p n x = none)
      (fun o => ∃ l v, (∀ r, r < p * p → Eigenvalues (p * n) (o r).1 l) ∧
        Dist.Holds (fun A a => A.Represents n a) p n (fun r => (o r).2) v ∧ Spectral (p * n) a l v) :=
  distributed_via (ellTileOps_exact hM (by omega)) hev hp hn hsc hA hV hs hw

/-- **C75**, distributed matrices with CSR tiles, real elements, any row capacity. -/
theorem C75_distributed_csr {ev : Dist.PEigen ℝ} (hev : Dist.PDiagonalizes ev) {p n : Nat} (M : Nat)
    (hp : 0 < p) (hn : 0 < n) {big0 : ℝ → Bool} (h0 : ∀ x, big0 x = false → x = 0)
    (jr : Nat → Nat → ℝ) (junk : Nat → Nat → Nat) {sc : Nat → Sched}
    (hsc : ∀ r, r < p * p → IsSched 0 (n - 1) (sc r)) {A V : Nat → Csr ℝ} {a v0 : Spec.Mat ℝ}
    (hA : Dist.Holds (fun A a => A.Represents n a) p n A a)
    (hV : Dist.Holds (fun A a => A.Represents n a) p n V v0) (hs : Symmetric (p * n) a)
    {w : Nat → Arr ℝ} (hw : ∀ r, r < p * p → p * n ≤ (w r).size) :
    (Dist.diagonalizeVia (Dist.csrTileOps (M / p) big0 jr junk) ev p (p * n) sc A V w).wp
      (∃ x, ev p n x = none)
      (fun o => ∃ l v, (∀ r, r < p * p → Eigenvalues (p * n) (o r).1 l) ∧
        Dist.Holds (fun A a => A.Represents n a) p n (fun r => (o r).2) v ∧ Spectral (p * n) a l v) :=
  distributed_via (csrTileOps_exact _ h0 jr junk) hev hp hn hsc hA hV hs hw

theorem ellbTileOps_exact {n m : Nat} (hm : m ≤ n) {g : Nat → EllB.Glob} (hg : ∀ r, (g r).For n n)
    (jv : Nat → Nat → K) :
    (Dist.ellbTileOps m g jv).Exact n (fun A a => A.Represents n a)
      (fun A a => A.Represents n a ∧ A.NB ≤ A.MB) where
  congr h e := by
    obtain ⟨L, h⟩ := EllB.represents_iff.1 h
    exact EllB.represents_iff.2 ⟨L, h.congr e⟩
  toDense _ A a hA := by
    obtain ⟨D, e, h⟩ := C29_convert_dense (N := n) (get := fun i j => A.getElement i j) (a := a)
      fun i j hi hj => hA.get i j hi hj
    refine ⟨D, ?_, Dense.represents_iff.1 h⟩
    show Dense.convertFrom _ A.N = _
    rw [hA.dim]
    exact e
  fromDense r D a hD := by
    obtain ⟨g', B, e, h1, -, -, h2, -⟩ := C66_convert_partial (hg r) hm
      (fun i j hi hj => (Dense.represents_iff.2 hD).get i j hi hj) (jv r)
    refine ⟨B, ?_, h1, h2⟩
    show (EllB.convert (g r) D.N m _ _ >>= _) = _
    rw [hD.dim, e]
    rfl
  transpose r A a hA := by
    obtain ⟨B, e, -, h, -⟩ := C64_transpose_partial hA.1 (colsFit_of_le hA.2).2 (jv r)
    exact ⟨B, e, h⟩

/-- **C75 (partial)**, distributed matrices with block-ELLPACK tiles, real elements: right if the block sizes
set in each process are unset or add up to the size of a tile, and the width is at most that of the matrix.
Missing: other block sizes. -/
theorem C75_distributed_ellblock_partial {ev : Dist.PEigen ℝ} (hev : Dist.PDiagonalizes ev) {p n M : Nat}
    (hp : 0 < p) (hn : 0 < n) (hM : M ≤ p * n) {g : Nat → EllB.Glob} (hg : ∀ r, (g r).For n n)
    (jv : Nat → Nat → ℝ) {sc : Nat → Sched}
    (hsc : ∀ r, r < p * p → IsSched 0 (n - 1) (sc r)) {A V : Nat → EllB ℝ} {a v0 : Spec.Mat ℝ}
    (hA : Dist.Holds (fun A a => A.Represents n a) p n A a)
    (hV : Dist.Holds (fun A a => A.Represents n a) p n V v0) (hs : Symmetric (p * n) a)
    {w : Nat → Arr ℝ} (hw : ∀ r, r < p * p → p * n ≤ (w r).size) :
    (Dist.diagonalizeVia (Dist.ellbTileOps (M / p) g jv) ev p (p * n) sc A V w).wp (∃ x, ev p n x = none)
      (fun o => ∃ l v, (∀ r, r < p * p → Eigenvalues (p * n) (o r).1 l) ∧
        Dist.Holds (fun A a => A.Represents n a) p n (fun r => (o r).2) v ∧ Spectral (p * n) a l v) :=
  distributed_via (ellbTileOps_exact (Nat.div_le_of_le_mul hM) hg jv) hev hp hn hsc hA hV hs hw

/-- **C75 fails** for ELLPACK tiles whose rows have less room than the tile has columns: whatever the
elements are, also for a diagonal matrix, and whatever ScaLAPACK does, the call does not return normally. -/
theorem C75_distributed_ellpack_narrow {ev : Dist.PEigen K} {p n M : Nat} (hp : 0 < p)
    (hM : M / p < n) (sc : Nat → Sched) (A : Nat → Ell K) {V : Nat → Ell K} {v0 : Spec.Mat K}
    (hV : Dist.Holds (fun A a => A.Represents n a) p n V v0) (w : Nat → Arr K)
    (o : Nat → Arr K × Ell K) :
    Dist.diagonalizeVia (Dist.ellTileOps (M / p)) ev p (p * n) sc A V w ≠ .ok o := by
  have hpp : 0 < p * p := Nat.mul_pos hp hp
  have key : (Dist.diagonalizeVia (Dist.ellTileOps (M / p)) ev p (p * n) sc A V w).wlp fun _ => False := by
    unfold Dist.diagonalizeVia
    rw [Res.wlp_bind]
    refine Res.wlp_mono (wlp_loop (fun k (x : Nat → Arr K × Dense K) => ∀ r, r < k → (x r).2.N = n)
      (fun _ h => absurd h (Nat.not_lt_zero _)) ?_) ?_
    · intro k hk x hx
      have hin : (Dist.eigenInputVia (Dist.ellTileOps (M / p)) p k (sc k) (A k) (V k)).wlp
          fun BZ => BZ.2.N = n := by
        unfold Dist.eigenInputVia
        rw [Res.wlp_bind]
        intro B _
        rw [Res.wlp_bind]
        intro Z hZ
        have hN : Z.N = n := by
          have hk' := hV _ _ (Dist.prow_lt hk) (Dist.pcol_lt hk)
          rw [Dist.rankOf_coords] at hk'
          have q : (Dense.convertFrom (fun i j => (V k).getElement i j) (V k).N).wlp
              fun D => D.N = (V k).N := by
            unfold Dense.convertFrom
            rw [Res.wlp_bind]
            exact fun _ _ => Res.wlp_ok.2 rfl
          rw [q Z hZ]
          exact hk'.dim
        split
        · rw [Res.wlp_bind]
          exact fun _ _ => Res.wlp_ok.2 hN
        · exact Res.wlp_ok.2 hN
      rw [Res.wlp_bind]
      refine Res.wlp_mono hin fun BZ hBZ => ?_
      split
      · exact Res.wlp_ub
      · refine Res.wlp_ok.2 fun r hr => ?_
        rcases Nat.lt_succ_iff_lt_or_eq.1 hr with hr' | rfl
        · rw [upd_ne _ _ (show r ≠ k by omega)]
          exact hx r hr'
        · rw [upd_same]
          exact hBZ
    · intro x hx
      split
      · exact Res.wlp_error
      · rename_i e y _
        refine Res.wlp_mono (wlp_loop (fun k (_ : Nat → Arr K × Ell K) => k = 0) rfl ?_) fun _ h => by omega
        intro k hk out _
        rw [Res.wlp_bind]
        unfold Dist.eigenOutputVia
        rw [Res.wlp_bind]
        intro w' _
        rw [Res.wlp_bind]
        intro T hT
        have hT' : Ell.convertFrom (fun i j => Dense.getElement { (x k).2 with mat := y k } i j)
            (x k).2.N (M / p) = .ok T := hT
        rw [hx k hk] at hT'
        exact absurd hT' (C29_narrow_fails hM _ _)
  exact fun h => key o h

/-- The Hermitian matrix of which the tiles on the diagonal are complex conjugates of those of `a`. -/
def conjTiles (n : Nat) (a : Spec.Mat K) : Spec.Mat K := fun i j =>
  if i / n = j / n then star (a i j) else a i j

/-- A Hermitian matrix is seen with conjugates in the tiles on the diagonal. -/
theorem seen_complex {n N : Nat} {a g : Spec.Mat K} (hs : Hermitian N a)
    (h1 : ∀ i j, i < N → j < N → g i j = if i / n = j / n then a j i else a i j) :
    Spec.Eq N (Dist.upperPart g) (conjTiles n a) := by
  intro i j hi hj
  have hg : g i j = conjTiles n a i j := by
    rw [h1 i j hi hj, hs j i hj hi]
    rfl
  have hg' : star (g j i) = conjTiles n a i j := by
    rw [h1 j i hj hi]
    unfold conjTiles
    by_cases h : i / n = j / n
    · rw [if_pos h.symm, if_pos h]
    · rw [if_neg (fun e => h e.symm), if_neg h, hs i j hi hj]
  unfold Dist.upperPart
  rcases lt_trichotomy i j with h | rfl | h
  · rw [if_pos h, hg]
  · rw [if_neg (lt_irrefl i), if_pos rfl, ← hg]
    exact RCLike.conj_eq_iff_re.1 (hg'.trans hg.symm)
  · rw [if_neg (by omega), if_neg (by omega), hg']

theorem distributed_via_complex {τ : Type} {T : Dist.TileOps τ K} {n : Nat} {Rep RepO : τ → Spec.Mat K → Prop}
    (hT : T.Exact n Rep RepO) {ev : Dist.PEigen K} (hev : Dist.PDiagonalizes ev) {p : Nat} (hp : 0 < p)
    (hn : 0 < n) {sc : Nat → Sched} (hsc : ∀ r, r < p * p → IsSched 0 (n - 1) (sc r))
    {A V : Nat → τ} {a v0 : Spec.Mat K} (hA : Dist.Holds Rep p n A a)
    (hV : Dist.Holds Rep p n V v0) (hs : Hermitian (p * n) a)
    {w : Nat → Arr K} (hw : ∀ r, r < p * p → p * n ≤ (w r).size) :
    (Dist.diagonalizeVia T ev p (p * n) sc A V w).wp (∃ x, ev p n x = none) (fun o => ∃ l v,
      (∀ r, r < p * p → Eigenvalues (p * n) (o r).1 l) ∧
      Dist.Holds Rep p n (fun r => (o r).2) v ∧ Spectral (p * n) (conjTiles n a) l v) := by
  refine Res.wp_mono (Dist.wp_diagonalizeVia hT hev hp hn hsc hA hV hw) ?_
  rintro o ⟨l, v, g, h1, h2, h3, h4⟩
  exact ⟨l, v, h2, h3, h4.congr (seen_complex hs h1)⟩

/-- **C75 (partial)**, ELLPACK tiles with room for all columns, any elements: what is diagonalized
is the matrix with complex conjugates in the tiles on the diagonal, and only there. -/
theorem C75_distributed_ellpack_complex_partial {ev : Dist.PEigen K} (hev : Dist.PDiagonalizes ev)
    {p n M : Nat} (hp : 0 < p) (hn : 0 < n) (hM : n ≤ M / p) {sc : Nat → Sched}
    (hsc : ∀ r, r < p * p → IsSched 0 (n - 1) (sc r)) {A V : Nat → Ell K} {a v0 : Spec.Mat K}
    (hA : Dist.Holds (fun A a => A.Represents n a) p n A a)
    (hV : Dist.Holds (fun A a => A.Represents n a) p n V v0) (hs : Hermitian (p * n) a)
    {w : Nat → Arr K} (hw : ∀ r, r < p * p → p * n ≤ (w r).size) :
    (Dist.diagonalizeVia (Dist.ellTileOps (M / p)) ev p (p * n) sc A V w).wp (∃ x, ev p n x = none)
      (fun o => ∃ l v, (∀ r, r < p * p → Eigenvalues (p * n) (o r).1 l) ∧
        Dist.Holds (fun A a => A.Represents n a) p n (fun r => (o r).2) v ∧
        Spectral (p * n) (conjTiles n a) l v) :=
  distributed_via_complex (ellTileOps_exact hM (by omega)) hev hp hn hsc hA hV hs hw

/-- **C75 (partial)**, CSR tiles, any elements: what is diagonalized
is the matrix with complex conjugates in the tiles on the diagonal, and only there. -/
theorem C75_distributed_csr_complex_partial {ev : Dist.PEigen K} (hev : Dist.PDiagonalizes ev) {p n : Nat}
    (M : Nat) (hp : 0 < p) (hn : 0 < n) {big0 : K → Bool} (h0 : ∀ x, big0 x = false → x = 0)
    (jr : Nat → Nat → K) (junk : Nat → Nat → Nat) {sc : Nat → Sched}
    (hsc : ∀ r, r < p * p → IsSched 0 (n - 1) (sc r)) {A V : Nat → Csr K} {a v0 : Spec.Mat K}
    (hA : Dist.Holds (fun A a => A.Represents n a) p n A a)
    (hV : Dist.Holds (fun A a => A.Represents n a) p n V v0) (hs : Hermitian (p * n) a)
    {w : Nat → Arr K} (hw : ∀ r, r < p * p → p * n ≤ (w r).size) :
    (Dist.diagonalizeVia (Dist.csrTileOps (M / p) big0 jr junk) ev p (p * n) sc A V w).wp
      (∃ x, ev p n x = none)
      (fun o => ∃ l v, (∀ r, r < p * p → Eigenvalues (p * n) (o r).1 l) ∧
        Dist.Holds (fun A a => A.Represents n a) p n (fun r => (o r).2) v ∧
        Spectral (p * n) (conjTiles n a) l v) :=
  distributed_via_complex (csrTileOps_exact _ h0 jr junk) hev hp hn hsc hA hV hs hw

/-- **C75 (partial)**, block-ELLPACK tiles, any elements: what is diagonalized
is the matrix with complex conjugates in the tiles on the diagonal, and only there. -/
theorem C75_distributed_ellblock_complex_partial {ev : Dist.PEigen K} (hev : Dist.PDiagonalizes ev)
    {p n M : Nat} (hp : 0 < p) (hn : 0 < n) (hM : M ≤ p * n) {g : Nat → EllB.Glob} (hg : ∀ r, (g r).For n n)
    (jv : Nat → Nat → K) {sc : Nat → Sched}
    (hsc : ∀ r, r < p * p → IsSched 0 (n - 1) (sc r)) {A V : Nat → EllB K} {a v0 : Spec.Mat K}
    (hA : Dist.Holds (fun A a => A.Represents n a) p n A a)
    (hV : Dist.Holds (fun A a => A.Represents n a) p n V v0) (hs : Hermitian (p * n) a)
    {w : Nat → Arr K} (hw : ∀ r, r < p * p → p * n ≤ (w r).size) :
    (Dist.diagonalizeVia (Dist.ellbTileOps (M / p) g jv) ev p (p * n) sc A V w).wp (∃ x, ev p n x = none)
      (fun o => ∃ l v, (∀ r, r < p * p → Eigenvalues (p * n) (o r).1 l) ∧
        Dist.Holds (fun A a => A.Represents n a) p n (fun r => (o r).2) v ∧
        Spectral (p * n) (conjTiles n a) l v) :=
  distributed_via_complex (ellbTileOps_exact (Nat.div_le_of_le_mul hM) hg jv) hev hp hn hsc hA hV hs hw

/-- **C75**, distributed matrices with dense tiles, any elements: for a Hermitian matrix what is diagonalized
is the matrix with complex conjugates in the tiles on the diagonal, and only there. -/
theorem C75_distributed_complex_partial {ev : Dist.PEigen K} (hev : Dist.PDiagonalizes ev) {p n : Nat}
    (hp : 0 < p) (hn : 0 < n) {sc sc' : Nat → Sched}
    (hsc : ∀ r, r < p * p → IsSched 0 (n - 1) (sc r) ∧ IsSched 0 (n - 1) (sc' r)) (junk : Nat → Nat → K)
    {A V : Nat → Dense K} {a v0 : Spec.Mat K} (hA : Dist.Holds (fun A a => A.Represents n a) p n A a)
    (hV : Dist.Holds (fun A a => A.Represents n a) p n V v0) (hs : Hermitian (p * n) a)
    {w : Nat → Arr K} (hw : ∀ r, r < p * p → p * n ≤ (w r).size) :
    (Dist.diagonalize ev p (p * n) sc sc' junk A V w).wp (∃ x, ev p n x = none) (fun o => ∃ l v,
      (∀ r, r < p * p → Eigenvalues (p * n) (o r).1 l) ∧
      Dist.Holds (fun A a => A.Represents n a) p n (fun r => (o r).2) v ∧
      Spectral (p * n) (conjTiles n a) l v) := by
  refine Res.wp_mono (Dist.wp_diagonalize hev hp hn hsc junk (holds_rep.1 hA) (holds_rep.1 hV) hw) ?_
  rintro o ⟨l, v, g, h1, h2, h3, h4⟩
  exact ⟨l, v, h2, holds_rep.2 h3, h4.congr (seen_complex hs h1)⟩

theorem conjTiles_real {n N : Nat} {a : Spec.Mat K}
    (hr : ∀ i j, i < N → j < N → i / n = j / n → star (a i j) = a i j) : Spec.Eq N (conjTiles n a) a := by
  intro i j hi hj
  unfold conjTiles
  split
  · rename_i h
    exact hr i j hi hj h
  · rfl

/-- **C75**, distributed matrices with dense tiles, any elements: right if the tiles on the diagonal are real,
as for tiles of one element. -/
theorem C75_distributed_real_tiles_partial {ev : Dist.PEigen K} (hev : Dist.PDiagonalizes ev) {p n : Nat}
    (hp : 0 < p) (hn : 0 < n) {sc sc' : Nat → Sched}
    (hsc : ∀ r, r < p * p → IsSched 0 (n - 1) (sc r) ∧ IsSched 0 (n - 1) (sc' r)) (junk : Nat → Nat → K)
    {A V : Nat → Dense K} {a v0 : Spec.Mat K} (hA : Dist.Holds (fun A a => A.Represents n a) p n A a)
    (hV : Dist.Holds (fun A a => A.Represents n a) p n V v0) (hs : Hermitian (p * n) a)
    (hr : ∀ i j, i < p * n → j < p * n → i / n = j / n → star (a i j) = a i j)
    {w : Nat → Arr K} (hw : ∀ r, r < p * p → p * n ≤ (w r).size) :
    (Dist.diagonalize ev p (p * n) sc sc' junk A V w).wp (∃ x, ev p n x = none) (fun o => ∃ l v,
      (∀ r, r < p * p → Eigenvalues (p * n) (o r).1 l) ∧
      Dist.Holds (fun A a => A.Represents n a) p n (fun r => (o r).2) v ∧ Spectral (p * n) a l v) := by
  refine Res.wp_mono (C75_distributed_complex_partial hev hp hn hsc junk hA hV hs hw) ?_
  rintro o ⟨l, v, h1, h2, h3⟩
  exact ⟨l, v, h1, h2, h3.congr (conjTiles_real hr)⟩

/-- **C75**, CSR tiles, any elements: right if the tiles on the diagonal are real. -/
theorem C75_distributed_csr_real_tiles_partial {ev : Dist.PEigen K} (hev : Dist.PDiagonalizes ev) {p n : Nat}
    (M : Nat) (hp : 0 < p) (hn : 0 < n) {big0 : K → Bool} (h0 : ∀ x, big0 x = false → x = 0)
    (jr : Nat → Nat → K) (junk : Nat → Nat → Nat)
    {sc : Nat → Sched} (hsc : ∀ r, r < p * p → IsSched 0 (n - 1) (sc r)) {A V : Nat → Csr K}
    {a v0 : Spec.Mat K} (hA : Dist.Holds (fun A a => A.Represents n a) p n A a)
    (hV : Dist.Holds (fun A a => A.Represents n a) p n V v0) (hs : Hermitian (p * n) a)
    (hr : ∀ i j, i < p * n → j < p * n → i / n = j / n → star (a i j) = a i j)
    {w : Nat → Arr K} (hw : ∀ r, r < p * p → p * n ≤ (w r).size) :
    (Dist.diagonalizeVia (Dist.csrTileOps (M / p) big0 jr junk) ev p (p * n) sc A V w).wp (∃ x, ev p n x = none) (fun o => ∃ l v,
      (∀ r, r < p * p → Eigenvalues (p * n) (o r).1 l) ∧
      Dist.Holds (fun A a => A.Represents n a) p n (fun r => (o r).2) v ∧ Spectral (p * n) a l v) := by
  refine Res.wp_mono (C75_distributed_csr_complex_partial hev M hp hn h0 jr junk hsc hA hV hs hw) ?_
  rintro o ⟨l, v, h1, h2, h3⟩
  exact ⟨l, v, h1, h2, h3.congr (conjTiles_real hr)⟩

/-- **C75**, ELLPACK tiles, any elements: right if the tiles on the diagonal are real. -/
theorem C75_distributed_ellpack_real_tiles_partial {ev : Dist.PEigen K} (hev : Dist.PDiagonalizes ev) {p n M : Nat}
    (hp : 0 < p) (hn : 0 < n) (hM : n ≤ M / p)
    {sc : Nat → Sched} (hsc : ∀ r, r < p * p → IsSched 0 (n - 1) (sc r)) {A V : Nat → Ell K}
    {a v0 : Spec.Mat K} (hA : Dist.Holds (fun A a => A.Represents n a) p n A a)
    (hV : Dist.Holds (fun A a => A.Represents n a) p n V v0) (hs : Hermitian (p * n) a)
    (hr : ∀ i j, i < p * n → j < p * n → i / n = j / n → star (a i j) = a i j)
    {w : Nat → Arr K} (hw : ∀ r, r < p * p → p * n ≤ (w r).size) :
    (Dist.diagonalizeVia (Dist.ellTileOps (M / p)) ev p (p * n) sc A V w).wp (∃ x, ev p n x = none) (fun o => ∃ l v,
      (∀ r, r < p * p → Eigenvalues (p * n) (o r).1 l) ∧
      Dist.Holds (fun A a => A.Represents n a) p n (fun r => (o r).2) v ∧ Spectral (p * n) a l v) := by
  refine Res.wp_mono (C75_distributed_ellpack_complex_partial hev hp hn hM hsc hA hV hs hw) ?_
  rintro o ⟨l, v, h1, h2, h3⟩
  exact ⟨l, v, h1, h2, h3.congr (conjTiles_real hr)⟩

/-- **C75**, block-ELLPACK tiles, any elements: right if the tiles on the diagonal are real. -/
theorem C75_distributed_ellblock_real_tiles_partial {ev : Dist.PEigen K} (hev : Dist.PDiagonalizes ev) {p n M : Nat}
    (hp : 0 < p) (hn : 0 < n) (hM : M ≤ p * n) {g : Nat → EllB.Glob} (hg : ∀ r, (g r).For n n)
    (jv : Nat → Nat → K)
    {sc : Nat → Sched} (hsc : ∀ r, r < p * p → IsSched 0 (n - 1) (sc r)) {A V : Nat → EllB K}
    {a v0 : Spec.Mat K} (hA : Dist.Holds (fun A a => A.Represents n a) p n A a)
    (hV : Dist.Holds (fun A a => A.Represents n a) p n V v0) (hs : Hermitian (p * n) a)
    (hr : ∀ i j, i < p * n → j < p * n → i / n = j / n → star (a i j) = a i j)
    {w : Nat → Arr K} (hw : ∀ r, r < p * p → p * n ≤ (w r).size) :
    (Dist.diagonalizeVia (Dist.ellbTileOps (M / p) g jv) ev p (p * n) sc A V w).wp (∃ x, ev p n x = none) (fun o => ∃ l v,
      (∀ r, r < p * p → Eigenvalues (p * n) (o r).1 l) ∧
      Dist.Holds (fun A a => A.Represents n a) p n (fun r => (o r).2) v ∧ Spectral (p * n) a l v) := by
  refine Res.wp_mono (C75_distributed_ellblock_complex_partial hev hp hn hM hg jv hsc hA hV hs hw) ?_
  rintro o ⟨l, v, h1, h2, h3⟩
  exact ⟨l, v, h1, h2, h3.congr (conjTiles_real hr)⟩

/-- **C75**, a distributed matrix on one rank: as for dense matrices, the eigenvalues are right, and `V` has the
conjugates of the eigenvectors. -/
theorem C75_distributed_one_rank_partial {ev : Dist.PEigen K} (hev : Dist.PDiagonalizes ev) {n : Nat}
    (hn : 0 < n) {sc sc' : Sched} (hsc : IsSched 0 (n - 1) sc) (hsc' : IsSched 0 (n - 1) sc')
    (junk : Nat → K) {A V : Dense K} {a v0 : Spec.Mat K} (hA : A.Represents n a) (hV : V.Represents n v0)
    (hs : Hermitian n a) {w : Arr K} (hw : n ≤ w.size) :
    (Dist.diagonalize ev 1 n (fun _ => sc) (fun _ => sc') (fun _ => junk) (fun _ => A) (fun _ => V)
        fun _ => w).wp (∃ x, ev 1 n x = none) (fun o => ∃ l v, Eigenvalues n (o 0).1 l ∧
      (o 0).2.Represents n v ∧ Spectral n a l (conj v)) := by
  have h1 : ∀ {D : Dense K} {d : Spec.Mat K}, D.Represents n d →
      Dist.Holds (fun A a => A.Represents n a) 1 n (fun _ => D) d := by
    intro D d hD i j hi hj
    obtain rfl : i = 0 := by omega
    obtain rfl : j = 0 := by omega
    refine hD.congr fun r s _ _ => ?_
    unfold Dist.tile
    rw [Nat.zero_mul, Nat.zero_add, Nat.zero_add]
  have key := C75_distributed_complex_partial hev (p := 1) (n := n) (by decide) hn
    (sc := fun _ => sc) (sc' := fun _ => sc') (fun _ _ => ⟨hsc, hsc'⟩) (fun _ => junk) (h1 hA) (h1 hV)
    (by rwa [Nat.one_mul]) (w := fun _ => w) (fun _ _ => by rwa [Nat.one_mul])
  rw [Nat.one_mul] at key
  refine Res.wp_mono key ?_
  rintro o ⟨l, v, g1, g2, g3⟩
  refine ⟨l, v, g1 0 (by decide), (g2 0 0 (by decide) (by decide)).congr fun i j _ _ => ?_,
    spectral_conj (g3.congr fun i j hi hj => ?_)⟩
  · unfold Dist.tile
    rw [Nat.zero_mul, Nat.zero_add, Nat.zero_add]
  · unfold conjTiles
    rw [Nat.div_eq_of_lt hi, Nat.div_eq_of_lt hj, if_pos rfl]
    rfl

/-- The sum of the cubes of the eigenvalues is the trace of the third power. -/
theorem trace_cube {N : Nat} {a : Spec.Mat K} {w : Nat → ℝ} {v : Spec.Mat K} (h : Spectral N a w v) :
    ∑ i ∈ Finset.range N, Spec.mul N a (Spec.mul N a a) i i =
      ∑ i ∈ Finset.range N, (w i : K) * ((w i : K) * (w i : K)) := by
  let A := Spec.toMatrix N a
  let V := Spec.toMatrix N v
  let D : Matrix (Fin N) (Fin N) K := Matrix.diagonal fun i => (w i : K)
  have h1 : A * V = V * D := by
    show Spec.toMatrix N a * Spec.toMatrix N v = _
    rw [← Spec.toMatrix_mul]
    funext i j
    rw [Matrix.mul_diagonal]
    show Spec.mul N a v i j = v i j * w j
    rw [h.eigen i j i.2 j.2, mul_comm]
  have h2 : V.conjTranspose * V = 1 := by
    funext i j
    rw [Matrix.mul_apply, Matrix.one_apply]
    have := h.ortho i j i.2 j.2
    rw [← Fin.sum_univ_eq_sum_range (fun k => star (v k i) * v k j)] at this
    simp only [Fin.ext_iff]
    exact this
  have h3 : V * V.conjTranspose = 1 := mul_eq_one_comm.1 h2
  have h1' : ∀ X, A * (V * X) = V * (D * X) := fun X => by rw [← mul_assoc, h1, mul_assoc]
  have h4 : A * (A * A) = V * (D * (D * D)) * V.conjTranspose := by
    calc A * (A * A) = A * (A * (A * (V * V.conjTranspose))) := by rw [h3, mul_one]
      _ = _ := by rw [h1', h1', h1']; simp only [mul_assoc]
  have h5 : Matrix.trace (A * (A * A)) = Matrix.trace (D * (D * D)) := by
    rw [h4, Matrix.trace_mul_comm, ← mul_assoc, h2, one_mul]
  have h6 : Spec.toMatrix N (Spec.mul N a (Spec.mul N a a)) = A * (A * A) := by
    rw [Spec.toMatrix_mul, Spec.toMatrix_mul]
  rw [← h6] at h5
  rw [← Fin.sum_univ_eq_sum_range (fun i => Spec.mul N a (Spec.mul N a a) i i),
    ← Fin.sum_univ_eq_sum_range (fun i => (w i : K) * ((w i : K) * (w i : K)))]
  have h7 : Matrix.trace (D * (D * D)) = ∑ i : Fin N, (w i : K) * ((w i : K) * (w i : K)) := by
    show Matrix.trace (Matrix.diagonal _ * (Matrix.diagonal _ * Matrix.diagonal _)) = _
    rw [Matrix.diagonal_mul_diagonal, Matrix.diagonal_mul_diagonal, Matrix.trace_diagonal]
  rw [← h7, ← h5]
  rfl

/-- A 4 × 4 Hermitian matrix: `a₀₁ = a₁₂ = i`, `a₀₂ = 1`. -/
def exTri : Spec.Mat ℂ := fun i j =>
  if i = 0 ∧ j = 1 ∨ i = 1 ∧ j = 2 then Complex.I
  else if i = 1 ∧ j = 0 ∨ i = 2 ∧ j = 1 then -Complex.I
  else if i = 0 ∧ j = 2 ∨ i = 2 ∧ j = 0 then 1 else 0

theorem exTri_hermitian : Hermitian 4 exTri := by
  intro i j hi hj
  interval_cases i <;> interval_cases j <;> simp [exTri]

/-- The sum of the cubes tells the two matrices apart. -/
theorem exTri_wrong {l l' : Nat → ℝ} {v v' : Spec.Mat ℂ} (h2 : Spectral 4 (conjTiles 2 exTri) l v)
    (h2' : Spectral 4 exTri l' v') (e : ∀ i, i < 4 → (l i : ℂ) = l' i) : False := by
  have t := trace_cube h2
  have t' := trace_cube h2'
  have : ∑ i ∈ Finset.range 4, (l i : ℂ) * ((l i : ℂ) * (l i : ℂ)) =
      ∑ i ∈ Finset.range 4, (l' i : ℂ) * ((l' i : ℂ) * (l' i : ℂ)) :=
    Finset.sum_congr rfl fun i hi => by rw [e i (Finset.mem_range.1 hi)]
  have key := (t.trans this).trans t'.symm
  simp [Spec.mul, Finset.sum_range_succ, conjTiles, exTri] at key
  norm_num at key

/-- **C75 fails for complex distributed matrices**: on four ranks, whatever ScaLAPACK does within its
documentation, the numbers returned for `exTri` are not even its eigenvalues. -/
theorem C75_distributed_complex_wrong {ev : Dist.PEigen ℂ} (hev : Dist.PDiagonalizes ev)
    {sc sc' : Nat → Sched} (hsc : ∀ r, r < 4 → IsSched 0 1 (sc r) ∧ IsSched 0 1 (sc' r))
    (junk : Nat → Nat → ℂ) {A V : Nat → Dense ℂ} {v0 : Spec.Mat ℂ}
    (hA : Dist.Holds (fun A a => A.Represents 2 a) 2 2 A exTri)
    (hV : Dist.Holds (fun A a => A.Represents 2 a) 2 2 V v0) {w : Nat → Arr ℂ}
    (hw : ∀ r, r < 4 → 4 ≤ (w r).size) :
    (Dist.diagonalize ev 2 4 sc sc' junk A V w).wp (∃ x, ev 2 2 x = none) (fun o =>
      ∀ r, r < 4 → ¬ ∃ l v, Eigenvalues 4 (o r).1 l ∧ Spectral 4 exTri l v) := by
  refine Res.wp_mono (C75_distributed_complex_partial hev (p := 2) (n := 2) (by decide) (by decide) hsc junk
    hA hV exTri_hermitian hw) ?_
  rintro o ⟨l, v, h1, -, h2⟩ r hr ⟨l', v', h1', h2'⟩
  exact exTri_wrong h2 h2' fun i hi => ((h1 r hr i hi).symm.trans (h1' i hi) :)

/-- **C75 fails for complex distributed matrices** in the same way with CSR tiles. -/
theorem C75_distributed_csr_complex_wrong {ev : Dist.PEigen ℂ} (hev : Dist.PDiagonalizes ev) (M : Nat)
    {big0 : ℂ → Bool} (h0 : ∀ x, big0 x = false → x = 0) (jr : Nat → Nat → ℂ) (junk : Nat → Nat → Nat)
    {sc : Nat → Sched} (hsc : ∀ r, r < 4 → IsSched 0 1 (sc r)) {A V : Nat → Csr ℂ} {v0 : Spec.Mat ℂ}
    (hA : Dist.Holds (fun A a => A.Represents 2 a) 2 2 A exTri)
    (hV : Dist.Holds (fun A a => A.Represents 2 a) 2 2 V v0) {w : Nat → Arr ℂ}
    (hw : ∀ r, r < 4 → 4 ≤ (w r).size) :
    (Dist.diagonalizeVia (Dist.csrTileOps (M / 2) big0 jr junk) ev 2 4 sc A V w).wp (∃ x, ev 2 2 x = none)
      (fun o => ∀ r, r < 4 → ¬ ∃ l v, Eigenvalues 4 (o r).1 l ∧ Spectral 4 exTri l v) := by
  refine Res.wp_mono (C75_distributed_csr_complex_partial hev (p := 2) (n := 2) M (by decide) (by decide) h0 jr
    junk hsc hA hV exTri_hermitian hw) ?_
  rintro o ⟨l, v, h1, -, h2⟩ r hr ⟨l', v', h1', h2'⟩
  exact exTri_wrong h2 h2' fun i hi => ((h1 r hr i hi).symm.trans (h1' i hi) :)

/-- And with ELLPACK tiles, whose rows have to have room. -/
theorem C75_distributed_ellpack_complex_wrong {ev : Dist.PEigen ℂ} (hev : Dist.PDiagonalizes ev) {M : Nat}
    (hM : 4 ≤ M) {sc : Nat → Sched} (hsc : ∀ r, r < 4 → IsSched 0 1 (sc r)) {A V : Nat → Ell ℂ}
    {v0 : Spec.Mat ℂ} (hA : Dist.Holds (fun A a => A.Represents 2 a) 2 2 A exTri)
    (hV : Dist.Holds (fun A a => A.Represents 2 a) 2 2 V v0) {w : Nat → Arr ℂ}
    (hw : ∀ r, r < 4 → 4 ≤ (w r).size) :
    (Dist.diagonalizeVia (Dist.ellTileOps (M / 2)) ev 2 4 sc A V w).wp (∃ x, ev 2 2 x = none)
      (fun o => ∀ r, r < 4 → ¬ ∃ l v, Eigenvalues 4 (o r).1 l ∧ Spectral 4 exTri l v) := by
  refine Res.wp_mono (C75_distributed_ellpack_complex_partial hev (p := 2) (n := 2) (M := M) (by decide)
    (by decide) (by omega) hsc hA hV exTri_hermitian hw) ?_
  rintro o ⟨l, v, h1, -, h2⟩ r hr ⟨l', v', h1', h2'⟩
  exact exTri_wrong h2 h2' fun i hi => ((h1 r hr i hi).symm.trans (h1' i hi) :)

/-- And with block-ELLPACK tiles. -/
theorem C75_distributed_ellblock_complex_wrong {ev : Dist.PEigen ℂ} (hev : Dist.PDiagonalizes ev) {M : Nat}
    (hM : M ≤ 4) {g : Nat → EllB.Glob} (hg : ∀ r, (g r).For 2 2) (jv : Nat → Nat → ℂ)
    {sc : Nat → Sched} (hsc : ∀ r, r < 4 → IsSched 0 1 (sc r)) {A V : Nat → EllB ℂ} {v0 : Spec.Mat ℂ}
    (hA : Dist.Holds (fun A a => A.Represents 2 a) 2 2 A exTri)
    (hV : Dist.Holds (fun A a => A.Represents 2 a) 2 2 V v0) {w : Nat → Arr ℂ}
    (hw : ∀ r, r < 4 → 4 ≤ (w r).size) :
    (Dist.diagonalizeVia (Dist.ellbTileOps (M / 2) g jv) ev 2 4 sc A V w).wp (∃ x, ev 2 2 x = none)
      (fun o => ∀ r, r < 4 → ¬ ∃ l v, Eigenvalues 4 (o r).1 l ∧ Spectral 4 exTri l v) := by
  refine Res.wp_mono (C75_distributed_ellblock_complex_partial hev (p := 2) (n := 2) (M := M) (by decide)
    (by decide) hM hg jv hsc hA hV exTri_hermitian hw) ?_
  rintro o ⟨l, v, h1, -, h2⟩ r hr ⟨l', v', h1', h2'⟩
  exact exTri_wrong h2 h2' fun i hi => ((h1 r hr i hi).symm.trans (h1' i hi) :)

/-! ## Examples -/

theorem upperPart_hermitian (N : Nat) (g : Spec.Mat K) : Hermitian N (Dist.upperPart g) := by
  intro i j _ _
  unfold Dist.upperPart
  rcases lt_trichotomy i j with h | rfl | h
  · rw [if_pos h, if_neg (show ¬ j < i by omega), if_neg (show ¬ j = i by omega), star_star]
  · rw [if_neg (lt_irrefl i), if_pos rfl]
    exact (RCLike.conj_ofReal _).symm
  · rw [if_neg (show ¬ i < j by omega), if_neg (show ¬ i = j by omega), if_pos h]

/-- A ScaLAPACK that meets the assumption and never fails. -/
theorem exists_pdiagonalizes (K : Type) [RCLike K] :
    ∃ ev : Dist.PEigen K, Dist.PDiagonalizes ev ∧ ∀ p n x, ev p n x ≠ none := by
  have h : ∀ p n (x : Nat → Arr K), ∃ r : Arr ℝ × (Nat → Arr K), r.1.size = p * n ∧
      (∀ k, (r.2 k).size = n * n) ∧
      Spectral (p * n) (Dist.upperPart (Dist.tiles p n x)) r.1.get (Dist.tiles p n r.2) := by
    intro p n x
    obtain ⟨w, v, h⟩ := exists_spectral (upperPart_hermitian (p * n) (Dist.tiles p n x))
    refine ⟨(⟨p * n, w⟩, fun r => ⟨n * n, fun q =>
      v (Dist.prow p r * n + q % n) (Dist.pcol p r * n + q / n)⟩), rfl, fun _ => rfl, h.congr_vec ?_⟩
    intro i j hi hj
    have hn : 0 < n := by
      rcases Nat.eq_zero_or_pos n with rfl | h
      · simp at hi
      · exact h
    have hj' : j / n < p := Nat.div_lt_of_lt_mul (by rwa [Nat.mul_comm])
    have hm : i % n < n := Nat.mod_lt _ hn
    unfold Dist.tiles
    simp only
    rw [Dist.prow_rankOf hj', Dist.pcol_rankOf hj', Nat.add_mul_mod_self_right, Nat.mod_eq_of_lt hm,
      Nat.add_mul_div_right _ _ hn, Nat.div_eq_of_lt hm, Nat.zero_add, Nat.div_add_mod', Nat.div_add_mod']
  choose f h1 h2 h3 using h
  refine ⟨fun p n x => some (f p n x), ⟨?_, ?_, ?_⟩, fun _ _ _ h => by cases h⟩
  · intro p n x e y h
    have q := h1 p n x
    rw [Option.some.inj h] at q
    exact q
  · intro p n x e y h r _
    have q := h2 p n x r
    rw [Option.some.inj h] at q
    exact q
  · intro p n x e y _ h
    have q := h3 p n x
    rw [Option.some.inj h] at q
    exact q

omit [RCLike K] in
/-- The tiles of a matrix on four ranks. -/
theorem exTiles (a : Spec.Mat K) : Dist.Holds (fun A a => A.Represents 2 a) 2 2
    (fun r => Dense.ofMat 2 (Dist.tile 2 (Dist.prow 2 r) (Dist.pcol 2 r) a)) a := by
  intro i j _ hj
  simp only [Dist.prow_rankOf hj, Dist.pcol_rankOf hj]
  exact Dense.ofMat_rep _ _

/-- A symmetric matrix with an element in every tile. -/
def exS4 : Spec.Mat ℝ := fun i j => if i + j = 3 then 2 else if i = j then 1 else 0

example : ∃ ev : Dist.PEigen ℝ, Dist.PDiagonalizes ev ∧ ∃ o l v,
    Dist.diagonalize ev 2 4 (fun _ => [(0, 0)]) (fun _ => [(0, 0)]) (fun _ _ => 9)
      (fun r => Dense.ofMat 2 (Dist.tile 2 (Dist.prow 2 r) (Dist.pcol 2 r) exS4))
      (fun r => Dense.ofMat 2 (Dist.tile 2 (Dist.prow 2 r) (Dist.pcol 2 r) exS4))
      (fun _ => ⟨4, fun _ => 0⟩) = .ok o ∧ (∀ r, r < 4 → Eigenvalues 4 (o r).1 l) ∧
      Dist.Holds (fun A a => A.Represents 2 a) 2 2 (fun r => (o r).2) v ∧ Spectral 4 exS4 l v := by
  obtain ⟨ev, hev, hne⟩ := exists_pdiagonalizes ℝ
  obtain ⟨o, e, l, v, h⟩ := Res.wp_exists (Res.wp_mono' (E' := False)
    (C75_distributed_real hev (p := 2) (n := 2) (by decide) (by decide)
      (sc := fun _ => [(0, 0)]) (sc' := fun _ => [(0, 0)])
      (fun r _ => ⟨show List.Perm [0] [0] by decide, show List.Perm [0] [0] by decide⟩) (fun _ _ => 9)
      (exTiles exS4) (exTiles exS4) (by
        intro i j hi hj
        unfold exS4
        rw [Nat.add_comm]
        simp only [eq_comm])
      (w := fun _ => ⟨4, fun _ => 0⟩) (fun _ _ => le_rfl))
    (fun ⟨x, hx⟩ => hne _ _ x hx) (fun _ h => h))
  exact ⟨ev, hev, o, l, v, e, h⟩

example : ∃ ev : Dist.PEigen ℂ, Dist.PDiagonalizes ev ∧ ∃ o,
    Dist.diagonalize ev 2 4 (fun _ => [(0, 0)]) (fun _ => [(0, 0)]) (fun _ _ => 9)
      (fun r => Dense.ofMat 2 (Dist.tile 2 (Dist.prow 2 r) (Dist.pcol 2 r) exTri))
      (fun r => Dense.ofMat 2 (Dist.tile 2 (Dist.prow 2 r) (Dist.pcol 2 r) exTri))
      (fun _ => ⟨4, fun _ => 0⟩) = .ok o ∧
      ∀ r, r < 4 → ¬ ∃ l v, Eigenvalues 4 (o r).1 l ∧ Spectral 4 exTri l v := by
  obtain ⟨ev, hev, hne⟩ := exists_pdiagonalizes ℂ
  obtain ⟨o, e, h⟩ := Res.wp_exists (Res.wp_mono' (E' := False)
    (C75_distributed_complex_wrong hev
      (sc := fun _ => [(0, 0)]) (sc' := fun _ => [(0, 0)])
      (fun r _ => ⟨show List.Perm [0] [0] by decide, show List.Perm [0] [0] by decide⟩) (fun _ _ => 9)
      (exTiles exTri) (exTiles exTri) (w := fun _ => ⟨4, fun _ => 0⟩) (fun _ _ => le_rfl))
    (fun ⟨x, hx⟩ => hne _ _ x hx) (fun _ h => h))
  exact ⟨ev, hev, o, e, h⟩

/-- The same matrix with CSR and with ELLPACK tiles that have room for two entries in a row. -/
theorem exTilesEll (a : Spec.Mat K) : ∃ A, Dist.Holds (fun A a => A.Represents 2 a) 2 2 A a ∧
    ∀ r, r < 4 → Ell.convertFrom (fun i j => (Dense.ofMat 2
      (Dist.tile 2 (Dist.prow 2 r) (Dist.pcol 2 r) a)).getElement i j) 2 2 = .ok (A r) := by
  have h : ∀ r, ∃ B : Ell K, Ell.convertFrom (fun i j => (Dense.ofMat 2
      (Dist.tile 2 (Dist.prow 2 r) (Dist.pcol 2 r) a)).getElement i j) 2 2 = .ok B ∧
      B.Represents 2 (Dist.tile 2 (Dist.prow 2 r) (Dist.pcol 2 r) a) := fun r => by
    obtain ⟨B, e, -, h⟩ := C29_convert_partial (N := 2) (M := 2) (by decide) le_rfl
      (fun i j hi hj => (Dense.ofMat_rep 2 (Dist.tile 2 (Dist.prow 2 r) (Dist.pcol 2 r) a)).get i j hi hj)
    exact ⟨B, e, h⟩
  choose A h1 h2 using h
  refine ⟨A, fun i j _ hj => ?_, fun r _ => h1 r⟩
  have := h2 (Dist.rankOf 2 i j)
  rwa [Dist.prow_rankOf hj, Dist.pcol_rankOf hj] at this

/-- `bml_convert` of these tiles to CSR. -/
theorem exTilesCsr (a : Spec.Mat K) : ∃ A : Nat → Csr K, Dist.Holds (fun A a => A.Represents 2 a) 2 2 A a := by
  have h : ∀ r, ∃ B : Csr K, B.Represents 2 (Dist.tile 2 (Dist.prow 2 r) (Dist.pcol 2 r) a) := fun r => by
    obtain ⟨B, -, -, h⟩ := C29_convert_csr (M := 2)
      (fun i hi => C04_dense_get_row (Dense.ofMat_rep 2 (Dist.tile 2 (Dist.prow 2 r) (Dist.pcol 2 r) a)) hi
        (fun _ => 0)) (fun _ => true) (fun _ h => by cases h) (fun _ => 0)
    exact ⟨B, h⟩
  choose A h using h
  refine ⟨A, fun i j _ hj => ?_⟩
  have := h (Dist.rankOf 2 i j)
  rwa [Dist.prow_rankOf hj, Dist.pcol_rankOf hj] at this

theorem exS4_symmetric : Symmetric 4 exS4 := by
  intro i j hi hj
  unfold exS4
  rw [Nat.add_comm]
  simp only [eq_comm]

/-- ELLPACK tiles: with `M = 4` the call works, with `M = 3` it does not. -/
example : ∃ ev : Dist.PEigen ℝ, Dist.PDiagonalizes ev ∧ ∃ A : Nat → Ell ℝ,
    Dist.Holds (fun A a => A.Represents 2 a) 2 2 A exS4 ∧ (∃ o l v,
    Dist.diagonalizeVia (Dist.ellTileOps (4 / 2)) ev 2 4 (fun _ => [(0, 0)]) A A
      (fun _ => ⟨4, fun _ => 0⟩) = .ok o ∧ (∀ r, r < 4 → Eigenvalues 4 (o r).1 l) ∧
      Dist.Holds (fun A a => A.Represents 2 a) 2 2 (fun r => (o r).2) v ∧ Spectral 4 exS4 l v) ∧
    ∀ o, Dist.diagonalizeVia (Dist.ellTileOps (3 / 2)) ev 2 4 (fun _ => [(0, 0)]) A A
      (fun _ => ⟨4, fun _ => 0⟩) ≠ .ok o := by
  obtain ⟨ev, hev, hne⟩ := exists_pdiagonalizes ℝ
  obtain ⟨A, hA, -⟩ := exTilesEll exS4
  obtain ⟨o, e, l, v, h⟩ := Res.wp_exists (Res.wp_mono' (E' := False)
    (C75_distributed_ellpack_partial hev (p := 2) (n := 2) (M := 4) (by decide) (by decide) (by decide)
      (sc := fun _ => [(0, 0)]) (fun r _ => show List.Perm [0] [0] by decide) hA hA exS4_symmetric
      (w := fun _ => ⟨4, fun _ => 0⟩) (fun _ _ => le_rfl))
    (fun ⟨x, hx⟩ => hne _ _ x hx) (fun _ h => h))
  exact ⟨ev, hev, A, hA, ⟨o, l, v, e, h⟩,
    C75_distributed_ellpack_narrow (p := 2) (n := 2) (M := 3) (by decide) (by decide) _ A hA _⟩

/-- CSR tiles. -/
example : ∃ ev : Dist.PEigen ℝ, Dist.PDiagonalizes ev ∧ ∃ A : Nat → Csr ℝ,
    Dist.Holds (fun A a => A.Represents 2 a) 2 2 A exS4 ∧ ∃ o l v,
    Dist.diagonalizeVia (Dist.csrTileOps (2 / 2) (fun _ => true) (fun _ _ => 5) (fun _ _ => 6)) ev 2 4
      (fun _ => [(0, 0)]) A A
      (fun _ => ⟨4, fun _ => 0⟩) = .ok o ∧ (∀ r, r < 4 → Eigenvalues 4 (o r).1 l) ∧
      Dist.Holds (fun A a => A.Represents 2 a) 2 2 (fun r => (o r).2) v ∧ Spectral 4 exS4 l v := by
  obtain ⟨ev, hev, hne⟩ := exists_pdiagonalizes ℝ
  obtain ⟨A, hA⟩ := exTilesCsr exS4
  obtain ⟨o, e, l, v, h⟩ := Res.wp_exists (Res.wp_mono' (E' := False)
    (C75_distributed_csr hev (p := 2) (n := 2) 2 (by decide) (by decide) (big0 := fun _ => true)
      (fun _ h => by cases h) (fun _ _ => 5) (fun _ _ => 6)
      (sc := fun _ => [(0, 0)]) (fun r _ => show List.Perm [0] [0] by decide) hA hA exS4_symmetric
      (w := fun _ => ⟨4, fun _ => 0⟩) (fun _ _ => le_rfl))
    (fun ⟨x, hx⟩ => hne _ _ x hx) (fun _ h => h))
  exact ⟨ev, hev, A, hA, o, l, v, e, h⟩

theorem exTilesEllb (a : Spec.Mat K) : ∃ A : Nat → EllB K,
    Dist.Holds (fun A a => A.Represents 2 a) 2 2 A a := by
  have h : ∀ r, ∃ B : EllB K, B.Represents 2 (Dist.tile 2 (Dist.prow 2 r) (Dist.pcol 2 r) a) := fun r => by
    obtain ⟨_, B, -, h, -⟩ := C66_convert_partial (g := EllB.Glob.init) (N := 2) (M := 1)
      (Or.inl ⟨rfl, by decide⟩) (by decide)
      (fun i j hi hj => (Dense.ofMat_rep 2 (Dist.tile 2 (Dist.prow 2 r) (Dist.pcol 2 r) a)).get i j hi hj)
      (fun _ => 9)
    exact ⟨B, h⟩
  choose A h using h
  refine ⟨A, fun i j _ hj => ?_⟩
  have := h (Dist.rankOf 2 i j)
  rwa [Dist.prow_rankOf hj, Dist.pcol_rankOf hj] at this

/-- Block-ELLPACK tiles with two blocks of size one in each row. -/
example : ∃ ev : Dist.PEigen ℝ, Dist.PDiagonalizes ev ∧ ∃ A : Nat → EllB ℝ,
    Dist.Holds (fun A a => A.Represents 2 a) 2 2 A exS4 ∧ ∃ o l v,
    Dist.diagonalizeVia (Dist.ellbTileOps (4 / 2) (fun _ => ⟨some ⟨2, fun _ => 1⟩, 2, 1⟩) fun _ _ => 5) ev 2 4
      (fun _ => [(0, 0)]) A A
      (fun _ => ⟨4, fun _ => 0⟩) = .ok o ∧ (∀ r, r < 4 → Eigenvalues 4 (o r).1 l) ∧
      Dist.Holds (fun A a => A.Represents 2 a) 2 2 (fun r => (o r).2) v ∧ Spectral 4 exS4 l v := by
  obtain ⟨ev, hev, hne⟩ := exists_pdiagonalizes ℝ
  obtain ⟨A, hA⟩ := exTilesEllb exS4
  obtain ⟨o, e, l, v, h⟩ := Res.wp_exists (Res.wp_mono' (E' := False)
    (C75_distributed_ellblock_partial hev (p := 2) (n := 2) (M := 4) (by decide) (by decide) (by decide)
      (g := fun _ => ⟨some ⟨2, fun _ => 1⟩, 2, 1⟩)
      (fun _ => Or.inr ⟨_, rfl, rfl, by decide, by decide, fun _ _ => show 1 < 1000000 by decide, rfl⟩) (fun _ _ => 5)
      (sc := fun _ => [(0, 0)]) (fun r _ => show List.Perm [0] [0] by decide) hA hA exS4_symmetric
      (w := fun _ => ⟨4, fun _ => 0⟩) (fun _ _ => le_rfl))
    (fun ⟨x, hx⟩ => hne _ _ x hx) (fun _ h => h))
  exact ⟨ev, hev, A, hA, o, l, v, e, h⟩

/-- `exTri` in CSR, ELLPACK and block-ELLPACK tiles: the calls return, with wrong eigenvalues. -/
example : ∃ ev : Dist.PEigen ℂ, Dist.PDiagonalizes ev ∧
    (∃ A o, Dist.Holds (fun A a => A.Represents 2 a) 2 2 A exTri ∧
      Dist.diagonalizeVia (Dist.csrTileOps (2 / 2) (fun _ => true) (fun _ _ => 5) (fun _ _ => 6)) ev 2 4
        (fun _ => [(0, 0)]) A A (fun _ => ⟨4, fun _ => 0⟩) = .ok o ∧
      ∀ r, r < 4 → ¬ ∃ l v, Eigenvalues 4 (o r).1 l ∧ Spectral 4 exTri l v) ∧
    (∃ A o, Dist.Holds (fun A a => A.Represents 2 a) 2 2 A exTri ∧
      Dist.diagonalizeVia (Dist.ellTileOps (4 / 2)) ev 2 4
        (fun _ => [(0, 0)]) A A (fun _ => ⟨4, fun _ => 0⟩) = .ok o ∧
      ∀ r, r < 4 → ¬ ∃ l v, Eigenvalues 4 (o r).1 l ∧ Spectral 4 exTri l v) ∧
    ∃ A o, Dist.Holds (fun A a => A.Represents 2 a) 2 2 A exTri ∧
      Dist.diagonalizeVia (Dist.ellbTileOps (4 / 2) (fun _ => EllB.Glob.init) fun _ _ => 5) ev 2 4
        (fun _ => [(0, 0)]) A A (fun _ => ⟨4, fun _ => 0⟩) = .ok o ∧
      ∀ r, r < 4 → ¬ ∃ l v, Eigenvalues 4 (o r).1 l ∧ Spectral 4 exTri l v := by
  obtain ⟨ev, hev, hne⟩ := exists_pdiagonalizes ℂ
  have hsc : ∀ r, r < 4 → IsSched 0 1 [(0, 0)] := fun r _ => show List.Perm [0] [0] by decide
  have hw : ∀ r : Nat, r < 4 → 4 ≤ (⟨4, fun _ => 0⟩ : Arr ℂ).size := fun _ _ => le_rfl
  refine ⟨ev, hev, ?_, ?_, ?_⟩
  · obtain ⟨A, hA⟩ := exTilesCsr exTri
    obtain ⟨o, e, h⟩ := Res.wp_exists (Res.wp_mono' (E' := False)
      (C75_distributed_csr_complex_wrong hev 2 (big0 := fun _ => true) (fun _ h => by cases h) (fun _ _ => 5)
        (fun _ _ => 6) hsc hA hA hw) (fun ⟨x, hx⟩ => hne _ _ x hx) (fun _ h => h))
    exact ⟨A, o, hA, e, h⟩
  · obtain ⟨A, hA, -⟩ := exTilesEll exTri
    obtain ⟨o, e, h⟩ := Res.wp_exists (Res.wp_mono' (E' := False)
      (C75_distributed_ellpack_complex_wrong hev (M := 4) le_rfl hsc hA hA hw)
      (fun ⟨x, hx⟩ => hne _ _ x hx) (fun _ h => h))
    exact ⟨A, o, hA, e, h⟩
  · obtain ⟨A, hA⟩ := exTilesEllb exTri
    obtain ⟨o, e, h⟩ := Res.wp_exists (Res.wp_mono' (E' := False)
      (C75_distributed_ellblock_complex_wrong hev (M := 4) le_rfl (g := fun _ => EllB.Glob.init)
        (fun _ => Or.inl ⟨rfl, by decide⟩) (fun _ _ => 5) hsc hA hA hw)
      (fun ⟨x, hx⟩ => hne _ _ x hx) (fun _ h => h))
    exact ⟨A, o, hA, e, h⟩

/-- A complex Hermitian matrix with real tiles on the diagonal: `a₀₃ = i`, `a₀₁ = 1`. -/
def exRT : Spec.Mat ℂ := fun i j =>
  if i = 0 ∧ j = 3 then Complex.I else if i = 3 ∧ j = 0 then -Complex.I
  else if i = 0 ∧ j = 1 ∨ i = 1 ∧ j = 0 then 1 else 0

example : ∃ ev : Dist.PEigen ℂ, Dist.PDiagonalizes ev ∧
    (∃ A o l v, Dist.Holds (fun A a => A.Represents 2 a) 2 2 A exRT ∧
      Dist.diagonalizeVia (Dist.csrTileOps (2 / 2) (fun _ => true) (fun _ _ => 5) (fun _ _ => 6)) ev 2 4
        (fun _ => [(0, 0)]) A A (fun _ => ⟨4, fun _ => 0⟩) = .ok o ∧
      Dist.Holds (fun A a => A.Represents 2 a) 2 2 (fun r => (o r).2) v ∧ Spectral 4 exRT l v) ∧
    (∃ A o l v, Dist.Holds (fun A a => A.Represents 2 a) 2 2 A exRT ∧
      Dist.diagonalizeVia (Dist.ellTileOps (4 / 2)) ev 2 4
        (fun _ => [(0, 0)]) A A (fun _ => ⟨4, fun _ => 0⟩) = .ok o ∧
      Dist.Holds (fun A a => A.Represents 2 a) 2 2 (fun r => (o r).2) v ∧ Spectral 4 exRT l v) ∧
    ∃ A o l v, Dist.Holds (fun A a => A.Represents 2 a) 2 2 A exRT ∧
      Dist.diagonalizeVia (Dist.ellbTileOps (4 / 2) (fun _ => EllB.Glob.init) fun _ _ => 5) ev 2 4
        (fun _ => [(0, 0)]) A A (fun _ => ⟨4, fun _ => 0⟩) = .ok o ∧
      Dist.Holds (fun A a => A.Represents 2 a) 2 2 (fun r => (o r).2) v ∧ Spectral 4 exRT l v := by
  obtain ⟨ev, hev, hne⟩ := exists_pdiagonalizes ℂ
  have hs : Hermitian 4 exRT := by
    intro i j hi hj
    interval_cases i <;> interval_cases j <;> simp [exRT]
  have hr : ∀ i j, i < 4 → j < 4 → i / 2 = j / 2 → star (exRT i j) = exRT i j := by
    intro i j hi hj h
    interval_cases i <;> interval_cases j <;> first | (exfalso; revert h; decide) | simp [exRT]
  have hsc : ∀ r, r < 4 → IsSched 0 1 [(0, 0)] := fun r _ => show List.Perm [0] [0] by decide
  have hw : ∀ r : Nat, r < 4 → 4 ≤ (⟨4, fun _ => 0⟩ : Arr ℂ).size := fun _ _ => le_rfl
  refine ⟨ev, hev, ?_, ?_, ?_⟩
  · obtain ⟨A, hA⟩ := exTilesCsr exRT
    obtain ⟨o, e, l, v, -, h⟩ := Res.wp_exists (Res.wp_mono' (E' := False)
      (C75_distributed_csr_real_tiles_partial hev (p := 2) (n := 2) 2 (by decide) (by decide)
        (big0 := fun _ => true) (fun _ h => by cases h) (fun _ _ => 5)
        (fun _ _ => 6) hsc hA hA hs hr hw) (fun ⟨x, hx⟩ => hne _ _ x hx) (fun _ h => h))
    exact ⟨A, o, l, v, hA, e, h⟩
  · obtain ⟨A, hA, -⟩ := exTilesEll exRT
    obtain ⟨o, e, l, v, -, h⟩ := Res.wp_exists (Res.wp_mono' (E' := False)
      (C75_distributed_ellpack_real_tiles_partial hev (p := 2) (n := 2) (M := 4) (by decide) (by decide)
        (by decide) hsc hA hA hs hr hw)
      (fun ⟨x, hx⟩ => hne _ _ x hx) (fun _ h => h))
    exact ⟨A, o, l, v, hA, e, h⟩
  · obtain ⟨A, hA⟩ := exTilesEllb exRT
    obtain ⟨o, e, l, v, -, h⟩ := Res.wp_exists (Res.wp_mono' (E' := False)
      (C75_distributed_ellblock_real_tiles_partial hev (p := 2) (n := 2) (M := 4) (by decide) (by decide)
        (by decide) (g := fun _ => EllB.Glob.init)
        (fun _ => Or.inl ⟨rfl, by decide⟩) (fun _ _ => 5) hsc hA hA hs hr hw)
      (fun ⟨x, hx⟩ => hne _ _ x hx) (fun _ h => h))
    exact ⟨A, o, l, v, hA, e, h⟩

/-- `[[0,-i],[i,0]]` as one tile on one rank, in ELLPACK, CSR and block-ELLPACK. -/
example : ∃ ev : Dist.PEigen ℂ, Dist.PDiagonalizes ev ∧
    (∃ A : Nat → Ell ℂ, Dist.Holds (fun A a => A.Represents 2 a) 1 2 A exY ∧ ∃ o l v,
      Dist.diagonalizeVia (Dist.ellTileOps (2 / 1)) ev 1 2 (fun _ => [(0, 0)]) A A (fun _ => ⟨2, fun _ => 0⟩) =
        .ok o ∧ Dist.Holds (fun A a => A.Represents 2 a) 1 2 (fun r => (o r).2) v ∧
      Spectral 2 (conjTiles 2 exY) l v) ∧
    (∃ A : Nat → Csr ℂ, Dist.Holds (fun A a => A.Represents 2 a) 1 2 A exY ∧ ∃ o l v,
      Dist.diagonalizeVia (Dist.csrTileOps (1 / 1) (fun _ => true) (fun _ _ => 5) (fun _ _ => 6)) ev 1 2
        (fun _ => [(0, 0)]) A A (fun _ => ⟨2, fun _ => 0⟩) =
        .ok o ∧ Dist.Holds (fun A a => A.Represents 2 a) 1 2 (fun r => (o r).2) v ∧
      Spectral 2 (conjTiles 2 exY) l v) ∧
    ∃ A : Nat → EllB ℂ, Dist.Holds (fun A a => A.Represents 2 a) 1 2 A exY ∧ ∃ o l v,
      Dist.diagonalizeVia (Dist.ellbTileOps (2 / 1) (fun _ => EllB.Glob.init) fun _ _ => 5) ev 1 2
        (fun _ => [(0, 0)]) A A (fun _ => ⟨2, fun _ => 0⟩) =
        .ok o ∧ Dist.Holds (fun A a => A.Represents 2 a) 1 2 (fun r => (o r).2) v ∧
      Spectral 2 (conjTiles 2 exY) l v := by
  obtain ⟨ev, hev, hne⟩ := exists_pdiagonalizes ℂ
  have ht : ∀ i j, i < 1 → j < 1 → Spec.Eq 2 exY (Dist.tile 2 i j exY) := by
    intro i j hi hj r s _ _
    obtain rfl : i = 0 := by omega
    obtain rfl : j = 0 := by omega
    unfold Dist.tile
    rw [Nat.zero_mul, Nat.zero_add, Nat.zero_add]
  refine ⟨ev, hev, ?_, ?_, ?_⟩
  · obtain ⟨B, -, -, h⟩ := C29_convert_partial (N := 2) (M := 2) (get := fun i j => (Dense.ofMat 2 exY).getElement i j)
      (a := exY) (by decide) le_rfl (fun i j hi hj => (Dense.ofMat_rep 2 exY).get i j hi hj)
    have hA : Dist.Holds (fun A a => A.Represents 2 a) 1 2 (fun _ => B) exY :=
      fun i j hi hj => (ellTileOps_exact (K := ℂ) le_rfl (by decide)).congr h (ht i j hi hj)
    obtain ⟨o, e, l, v, -, h⟩ := Res.wp_exists (Res.wp_mono' (E' := False)
      (C75_distributed_ellpack_complex_partial hev (p := 1) (n := 2) (M := 2) (by decide) (by decide) (by decide)
        (sc := fun _ => [(0, 0)]) (fun r _ => show List.Perm [0] [0] by decide) hA hA exY_hermitian
        (w := fun _ => ⟨2, fun _ => 0⟩) (fun _ _ => le_rfl))
      (fun ⟨x, hx⟩ => hne _ _ x hx) (fun _ h => h))
    exact ⟨_, hA, o, l, v, e, h⟩
  · obtain ⟨B, -, -, h⟩ := C29_convert_csr (M := 2) (fun i hi => C04_dense_get_row (Dense.ofMat_rep 2 exY) hi
      (fun _ => 0)) (fun _ => true) (fun _ h => by cases h) (fun _ => 0)
    have hA : Dist.Holds (fun A a => A.Represents 2 a) 1 2 (fun _ => B) exY :=
      fun i j hi hj => h.congr (ht i j hi hj)
    obtain ⟨o, e, l, v, -, h⟩ := Res.wp_exists (Res.wp_mono' (E' := False)
      (C75_distributed_csr_complex_partial hev (p := 1) (n := 2) 1 (by decide) (by decide) (big0 := fun _ => true)
        (fun _ h => by cases h) (fun _ _ => 5) (fun _ _ => 6)
        (sc := fun _ => [(0, 0)]) (fun r _ => show List.Perm [0] [0] by decide) hA hA exY_hermitian
        (w := fun _ => ⟨2, fun _ => 0⟩) (fun _ _ => le_rfl))
      (fun ⟨x, hx⟩ => hne _ _ x hx) (fun _ h => h))
    exact ⟨_, hA, o, l, v, e, h⟩
  · obtain ⟨_, B, -, h, -⟩ := C66_convert_partial (g := EllB.Glob.init) (N := 2) (M := 1)
      (Or.inl ⟨rfl, by decide⟩) (by decide)
      (fun i j hi hj => (Dense.ofMat_rep 2 exY).get i j hi hj) (fun _ => 9)
    have hA : Dist.Holds (fun A a => A.Represents 2 a) 1 2 (fun _ => B) exY := by
      intro i j hi hj
      obtain ⟨L, h⟩ := EllB.represents_iff.1 h
      exact EllB.represents_iff.2 ⟨L, h.congr (ht i j hi hj)⟩
    obtain ⟨o, e, l, v, -, h⟩ := Res.wp_exists (Res.wp_mono' (E' := False)
      (C75_distributed_ellblock_complex_partial hev (p := 1) (n := 2) (M := 2) (by decide) (by decide)
        (by decide) (g := fun _ => EllB.Glob.init) (fun _ => Or.inl ⟨rfl, by decide⟩) (fun _ _ => 5)
        (sc := fun _ => [(0, 0)]) (fun r _ => show List.Perm [0] [0] by decide) hA hA exY_hermitian
        (w := fun _ => ⟨2, fun _ => 0⟩) (fun _ _ => le_rfl))
      (fun ⟨x, hx⟩ => hne _ _ x hx) (fun _ h => h))
    exact ⟨_, hA, o, l, v, e, h⟩

/-- `[[0,-i],[i,0]]` on four ranks with tiles of one element. -/
example : ∃ ev : Dist.PEigen ℂ, Dist.PDiagonalizes ev ∧ ∃ o l v,
    Dist.diagonalize ev 2 2 (fun _ => []) (fun _ => []) (fun _ _ => 9)
      (fun r => Dense.ofMat 1 (Dist.tile 1 (Dist.prow 2 r) (Dist.pcol 2 r) exY))
      (fun r => Dense.ofMat 1 (Dist.tile 1 (Dist.prow 2 r) (Dist.pcol 2 r) exY))
      (fun _ => ⟨2, fun _ => 0⟩) = .ok o ∧ (∀ r, r < 4 → Eigenvalues 2 (o r).1 l) ∧
      Dist.Holds (fun A a => A.Represents 1 a) 2 1 (fun r => (o r).2) v ∧ Spectral 2 exY l v := by
  obtain ⟨ev, hev, hne⟩ := exists_pdiagonalizes ℂ
  have hT : Dist.Holds (fun A a => A.Represents 1 a) 2 1
      (fun r => Dense.ofMat 1 (Dist.tile 1 (Dist.prow 2 r) (Dist.pcol 2 r) exY)) exY := by
    intro i j _ hj
    simp only [Dist.prow_rankOf hj, Dist.pcol_rankOf hj]
    exact Dense.ofMat_rep _ _
  obtain ⟨o, e, l, v, h⟩ := Res.wp_exists (Res.wp_mono' (E' := False)
    (C75_distributed_real_tiles_partial hev (p := 2) (n := 1) (by decide) (by decide)
      (sc := fun _ => []) (sc' := fun _ => [])
      (fun r _ => ⟨show List.Perm [] [] by decide, show List.Perm [] [] by decide⟩) (fun _ _ => 9)
      hT hT exY_hermitian (by
        intro i j hi hj h
        rw [Nat.div_one, Nat.div_one] at h
        subst h
        interval_cases i <;> simp [exY])
      (w := fun _ => ⟨2, fun _ => 0⟩) (fun _ _ => le_rfl))
    (fun ⟨x, hx⟩ => hne _ _ x hx) (fun _ h => h))
  exact ⟨ev, hev, o, l, v, e, h⟩

/-- The same matrix on one rank. -/
example : ∃ ev : Dist.PEigen ℂ, Dist.PDiagonalizes ev ∧ ∃ o l v,
    Dist.diagonalize ev 1 2 (fun _ => [(0, 0)]) (fun _ => [(0, 0)]) (fun _ _ => 9) (fun _ => Dense.ofMat 2 exY)
      (fun _ => Dense.ofMat 2 exY) (fun _ => ⟨2, fun _ => 0⟩) = .ok o ∧ Eigenvalues 2 (o 0).1 l ∧
      (o 0).2.Represents 2 v ∧ Spectral 2 exY l (conj v) := by
  obtain ⟨ev, hev, hne⟩ := exists_pdiagonalizes ℂ
  obtain ⟨o, e, l, v, h⟩ := Res.wp_exists (Res.wp_mono' (E' := False)
    (C75_distributed_one_rank_partial hev (n := 2) (by decide) (sc := [(0, 0)]) (sc' := [(0, 0)])
      (show List.Perm [0] [0] by decide) (show List.Perm [0] [0] by decide) (fun _ => 9)
      (Dense.ofMat_rep 2 exY) (Dense.ofMat_rep 2 exY) exY_hermitian (w := ⟨2, fun _ => 0⟩) le_rfl)
    (fun ⟨x, hx⟩ => hne _ _ x hx) (fun _ h => h))
  exact ⟨ev, hev, o, l, v, e, h⟩

end Bml.Props
