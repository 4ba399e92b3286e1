import Verif.Ellblock.Model4
import Verif.Ellblock.Model6
import Verif.LapackSpec
import Verif.Dist.Grid
import Verif.Dense.Ops
import Verif.Ellpack.Model3
import Verif.Ellpack.Model4
import Verif.Csr.Model2

/-!
# Diagonalization of 2-D distributed matrices

`distributed2d/bml_diagonalize_distributed2d_typed.c`, built with ScaLAPACK.  ScaLAPACK
is not part of the library: its procedure is a parameter, and the theorems assume of it what its
documentation promises, in exact arithmetic.
-/

namespace Bml.Dist

open Bml.Lapack

variable {K : Type}

/-- `PSSYEVD`, `PDSYEVD`, `PCHEEVD` or `PZHEEVD` with `"V"` and `"U"` on a `p × p` grid of processes, for a
matrix in blocks of `n × n`, one for each process, with leading dimension `n`.  `x r` is the local array of
rank `r`.  `none` is `info ≠ 0`; otherwise the eigenvalues, which every process gets, and the local arrays
of the eigenvectors. -/
abbrev PEigen (K : Type) := Nat → Nat → (Nat → Arr K) → Option (Arr ℝ × (Nat → Arr K))

/-- `bml_diagonalize_distributed2d_scalapack`, lines 192-212, on rank `r` with a dense tile: the copy that
is given to ScaLAPACK.  `sc` is the order of the loop in `bml_transpose`, `junk` the fresh memory. -/
def eigenInput (p r : Nat) (sc : Sched) (junk : Nat → K) (A : Dense K) : Res (Dense K) := do
  let B ← A.copyNew junk
  if prow p r ≠ pcol p r then B.transpose sc else pure B

/-- The same function, lines 287-288 and, from `bml_diagonalize_distributed2d`, line 497, on rank `r`:
`y` is what ScaLAPACK left in the array of the matrix `V`, `ev` the eigenvalues, `w` the caller's array. -/
def eigenOutput [RCLike K] (N : Nat) (sc : Sched) (ev : Arr ℝ) (y : Arr K) (w : Arr K) (V : Dense K) :
    Res (Arr K × Dense K) := do
  let w ← loop N w fun i w => do
    let x ← ev.read i
    w.write i (x : K)
  let V ← { V with mat := y }.transpose sc
  pure (w, V)

/-- `bml_diagonalize_distributed2d`, lines 478-498, with lines 158-308, for dense tiles, in a build with
ScaLAPACK and without ELPA: all ranks.  `A`, `V` are the tiles of the two matrices, `w` the arrays for the
eigenvalues.  Not modelled: the sizes of the workspaces, the BLACS context, builds
without ScaLAPACK (an error
in line 492).  ScaLAPACK is a collective call, so that it starts when all ranks have prepared their arrays. -/
def diagonalize [RCLike K] (ev : PEigen K) (p N : Nat) (sc sc' : Nat → Sched) (junk : Nat → Nat → K)
    (A V : Nat → Dense K) (w : Nat → Arr K) : Res (Nat → Arr K × Dense K) := do
  let n := N / p
  let x : Nat → Arr K ← loop (p * p) (fun _ => (⟨0, fun _ => 0⟩ : Arr K)) fun r x => do
    let B ← eigenInput p r (sc r) (junk r) (A r)
    if B.mat.size < n * n ∨ (V r).mat.size < n * n then .ub else pure (upd x r B.mat)
  match ev p n x with
  | none => .error
  | some (e, y) =>
    loop (p * p) (fun r => (w r, V r)) fun r out => do
      let o ← eigenOutput N (sc' r) e (y r) (w r) (V r)
      pure (upd out r o)

/-! ## Tiles of other formats -/

/-- The functions that are called on tiles that are not dense: `bml_convert` to dense (lines 199-203),
`bml_convert` from dense to the format of `A` (lines 302-304; the width is a parameter of the format here)
and `bml_transpose`.  The first argument is the rank. -/
structure TileOps (τ K : Type) where
  toDense : Nat → τ → Res (Dense K)
  fromDense : Nat → Dense K → Res τ
  transpose : Nat → τ → Res τ

/-- `bml_diagonalize_distributed2d_scalapack`, lines 197-212, on rank `r`: `amat` and `zmat`. -/
def eigenInputVia {τ : Type} (T : TileOps τ K) (p r : Nat) (sc : Sched) (A V : τ) : Res (Dense K × Dense K) := do
  let B ← T.toDense r A
  let Z ← T.toDense r V
  let B ← if prow p r ≠ pcol p r then B.transpose sc else pure B
  pure (B, Z)

/-- Lines 287-288, 299-306 and 497 on rank `r`: `y` is what ScaLAPACK left in the array of `Z`. -/
def eigenOutputVia {τ : Type} [RCLike K] (T : TileOps τ K) (N r : Nat) (ev : Arr ℝ) (y : Arr K) (w : Arr K)
    (Z : Dense K) : Res (Arr K × τ) := do
  let w ← loop N w fun i w => do
    let x ← ev.read i
    w.write i (x : K)
  let V ← T.fromDense r { Z with mat := y }
  let V ← T.transpose r V
  pure (w, V)

/-- `bml_diagonalize_distributed2d`, lines 478-498, with lines 158-308, for tiles that are not dense. -/
def diagonalizeVia {τ : Type} [RCLike K] (T : TileOps τ K) (ev : PEigen K) (p N : Nat) (sc : Nat → Sched)
    (A V : Nat → τ) (w : Nat → Arr K) : Res (Nat → Arr K × τ) := do
  let n := N / p
  let x : Nat → Arr K × Dense K ← loop (p * p) (fun _ => (⟨0, fun _ => 0⟩, ⟨0, ⟨0, fun _ => 0⟩⟩)) fun r x => do
    let BZ ← eigenInputVia T p r (sc r) (A r) (V r)
    if BZ.1.mat.size < n * n ∨ BZ.2.mat.size < n * n then .ub else pure (upd x r (BZ.1.mat, BZ.2))
  match ev p n (fun r => (x r).1) with
  | none => .error
  | some (e, y) =>
    loop (p * p) (fun r => (w r, V r)) fun r out => do
      let o ← eigenOutputVia T N r e (y r) (w r) (x r).2
      pure (upd out r o)

/-- ELLPACK tiles; `m` is `A->M / A->npcols` (line 304). -/
def ellTileOps [RCLike K] (m : Nat) : TileOps (Ell K) K where
  toDense _ A := Dense.convertFrom (fun i j => A.getElement i j) A.N
  fromDense _ D := Ell.convertFrom (fun i j => D.getElement i j) D.N m
  transpose _ A := Ell.transposeInPlace A

/-- CSR tiles.  `big0` is the test for magnitude above 0, `jr` and `junk` are fresh memory. -/
def csrTileOps [RCLike K] (m : Nat) (big0 : K → Bool) (jr : Nat → Nat → K) (junk : Nat → Nat → Nat) :
    TileOps (Csr K) K where
  toDense _ A := Dense.convertFrom (fun i j => A.getElement i j) A.N
  fromDense r D := Csr.convertFrom (fun i => D.getRow i (jr r)) D.N m big0 (junk r)
  transpose _ A := A.transposeInPlace

/-- Block-ELLPACK tiles; `g r` are the block sizes set in the process of rank `r`, `jv` is fresh memory.
Simplification: block sizes that the conversion sets are not kept for later calls. -/
def ellbTileOps [RCLike K] (m : Nat) (g : Nat → EllB.Glob) (jv : Nat → Nat → K) : TileOps (EllB K) K where
  toDense _ A := Dense.convertFrom (fun i j => A.getElement i j) A.N
  fromDense r D := do
    let x ← EllB.convert (g r) D.N m (fun i j => D.getElement i j) (jv r)
    pure x.2
  transpose r A := A.transposeInPlace (jv r)

/-- The matrix that ScaLAPACK reads from local column-major arrays. -/
def tiles (p n : Nat) (x : Nat → Arr K) : Spec.Mat K := fun i j =>
  (x (rankOf p (i / n) (j / n))).get (i % n + j % n * n)

/-- The matrix that `"U"` makes ScaLAPACK work on: the upper triangle, its conjugate below, the real part of
the diagonal. -/
def upperPart [RCLike K] (g : Spec.Mat K) : Spec.Mat K := fun i j =>
  if i < j then g i j else if i = j then (RCLike.re (g i i) : K) else star (g j i)

/-- What is assumed of the procedure, where it reports success. -/
structure PDiagonalizes [RCLike K] (ev : PEigen K) : Prop where
  vals : ∀ p n x e y, ev p n x = some (e, y) → e.size = p * n
  vecs : ∀ p n x e y, ev p n x = some (e, y) → ∀ r, r < p * p → (y r).size = n * n
  spectral : ∀ p n x e y, (∀ r, r < p * p → n * n ≤ (x r).size) → ev p n x = some (e, y) →
    Spectral (p * n) (upperPart (tiles p n x)) e.get (tiles p n y)

variable [RCLike K] {E : Prop}

omit [RCLike K] in
theorem wp_eigenInput {p r n : Nat} {sc : Sched} (hsc : IsSched 0 (n - 1) sc) (junk : Nat → K)
    {A : Dense K} {a : Spec.Mat K} (hA : A.Rep n a) :
    (eigenInput p r sc junk A).wp E (fun B =>
      B.Rep n (if prow p r = pcol p r then a else Spec.transpose a)) := by
  unfold eigenInput
  rw [Res.wp_bind]
  refine Res.wp_mono (Dense.wp_copyNew hA junk) fun B hB => ?_
  by_cases h : prow p r = pcol p r
  · rw [if_neg (not_not.2 h), if_pos h]
    exact (Res.wp_ok _).2 hB
  · rw [if_pos h, if_neg h]
    exact Dense.wp_transpose hB hsc

theorem wp_eigenOutput {N n : Nat} {sc : Sched} (hsc : IsSched 0 (n - 1) sc) {e : Arr ℝ} (he : e.size = N)
    {y w : Arr K} (hy : y.size = n * n) (hw : N ≤ w.size) {V : Dense K} (hV : V.N = n) :
    (eigenOutput N sc e y w V).wp E (fun o => (∀ i, i < N → o.1.get i = (e.get i : K)) ∧
      o.2.Rep n (fun i j => y.get (i + j * n))) := by
  unfold eigenOutput
  rw [Res.wp_bind]
  refine wp_loop' (fun k (w' : Arr K) => w'.size = w.size ∧ ∀ i, i < k → w'.get i = (e.get i : K))
    ⟨rfl, fun _ h => absurd h (Nat.not_lt_zero _)⟩ ?_ ?_
  · rintro k hk w1 ⟨g1, g2⟩
    rw [Arr.read_ok (by omega), Res.bind_ok, Arr.write_ok _ (by omega)]
    refine (Res.wp_ok _).2 ⟨g1, fun i hi => ?_⟩
    rcases Nat.lt_succ_iff_lt_or_eq.1 hi with hi' | rfl
    · simp only [upd_ne _ _ (show i ≠ k by omega)]
      exact g2 i hi'
    · simp only [upd_same]
  · rintro w1 ⟨-, g2⟩
    rw [Res.wp_bind]
    have hR : Dense.Rep { V with mat := y } n (fun i j => y.get (i * n + j)) := ⟨hV, hy, fun _ _ _ _ => rfl⟩
    refine Res.wp_mono (Dense.wp_transpose hR hsc) fun V' hV' => (Res.wp_ok _).2 ⟨g2, hV'.dim, hV'.size, ?_⟩
    intro i j hi hj
    rw [hV'.get i j hi hj, Nat.add_comm i]
    rfl

/-- The functions are right: `Rep` for matrices given, `RepO` for converted ones. -/
structure TileOps.Exact {τ : Type} (T : TileOps τ K) (n : Nat) (Rep RepO : τ → Spec.Mat K → Prop) : Prop where
  congr : ∀ {A a b}, Rep A a → Spec.Eq n a b → Rep A b
  toDense : ∀ r {A a}, Rep A a → ∃ D, T.toDense r A = .ok D ∧ D.Rep n a
  fromDense : ∀ r {D a}, D.Rep n a → ∃ A, T.fromDense r D = .ok A ∧ RepO A a
  transpose : ∀ r {A a}, RepO A a → ∃ A', T.transpose r A = .ok A' ∧ Rep A' (Spec.transpose a)

theorem wp_of_exists {α : Type} {r : Res α} {Q : α → Prop} (h : ∃ x, r = .ok x ∧ Q x) : r.wp E Q := by
  obtain ⟨x, rfl, hx⟩ := h
  exact (Res.wp_ok _).2 hx

section
variable {τ : Type} {T : TileOps τ K} {n : Nat} {Rep RepO : τ → Spec.Mat K → Prop}

omit [RCLike K] in
theorem wp_eigenInputVia (hT : T.Exact n Rep RepO) {p r : Nat} {sc : Sched} (hsc : IsSched 0 (n - 1) sc)
    {A V : τ} {a v : Spec.Mat K} (hA : Rep A a) (hV : Rep V v) :
    (eigenInputVia T p r sc A V).wp E (fun BZ =>
      BZ.1.Rep n (if prow p r = pcol p r then a else Spec.transpose a) ∧ BZ.2.Rep n v) := by
  unfold eigenInputVia
  rw [Res.wp_bind]
  refine Res.wp_mono (wp_of_exists (hT.toDense r hA)) fun B hB => ?_
  rw [Res.wp_bind]
  refine Res.wp_mono (wp_of_exists (hT.toDense r hV)) fun Z hZ => ?_
  by_cases h : prow p r = pcol p r
  · rw [if_neg (not_not.2 h), if_pos h]
    exact (Res.wp_ok _).2 ⟨hB, hZ⟩
  · rw [if_pos h, if_neg h, Res.wp_bind]
    exact Res.wp_mono (Dense.wp_transpose hB hsc) fun B' hB' => (Res.wp_ok _).2 ⟨hB', hZ⟩

theorem wp_eigenOutputVia (hT : T.Exact n Rep RepO) {N r : Nat} {e : Arr ℝ} (he : e.size = N)
    {y w : Arr K} (hy : y.size = n * n) (hw : N ≤ w.size) {Z : Dense K} (hZ : Z.N = n) :
    (eigenOutputVia T N r e y w Z).wp E (fun o => (∀ i, i < N → o.1.get i = (e.get i : K)) ∧
      Rep o.2 (fun i j => y.get (i + j * n))) := by
  unfold eigenOutputVia
  rw [Res.wp_bind]
  refine wp_loop' (fun k (w' : Arr K) => w'.size = w.size ∧ ∀ i, i < k → w'.get i = (e.get i : K))
    ⟨rfl, fun _ h => absurd h (Nat.not_lt_zero _)⟩ ?_ ?_
  · rintro k hk w1 ⟨g1, g2⟩
    rw [Arr.read_ok (by omega), Res.bind_ok, Arr.write_ok _ (by omega)]
    refine (Res.wp_ok _).2 ⟨g1, fun i hi => ?_⟩
    rcases Nat.lt_succ_iff_lt_or_eq.1 hi with hi' | rfl
    · simp only [upd_ne _ _ (show i ≠ k by omega)]
      exact g2 i hi'
    · simp only [upd_same]
  · rintro w1 ⟨-, g2⟩
    have hR : Dense.Rep { Z with mat := y } n (fun i j => y.get (i * n + j)) := ⟨hZ, hy, fun _ _ _ _ => rfl⟩
    rw [Res.wp_bind]
    refine Res.wp_mono (wp_of_exists (hT.fromDense r hR)) fun V hV => ?_
    rw [Res.wp_bind]
    refine Res.wp_mono (wp_of_exists (hT.transpose r hV)) fun V' hV' => (Res.wp_ok _).2 ⟨g2, hT.congr hV' ?_⟩
    intro i j _ _
    show y.get (j * n + i) = _
    rw [Nat.add_comm]

end

omit [RCLike K] in
theorem tiles_input {p n : Nat} (hn : 0 < n) {a : Spec.Mat K} {x : Nat → Arr K}
    (hx : ∀ r, r < p * p → (x r).size = n * n ∧ ∀ i j, i < n → j < n →
      (x r).get (i * n + j) = if prow p r = pcol p r then tile n (prow p r) (pcol p r) a i j
        else tile n (prow p r) (pcol p r) a j i) {i j : Nat} (hi : i < p * n) (hj : j < p * n) :
    tiles p n x i j = if i / n = j / n then a j i else a i j := by
  have hi' : i / n < p := Nat.div_lt_of_lt_mul (by rwa [Nat.mul_comm])
  have hj' : j / n < p := Nat.div_lt_of_lt_mul (by rwa [Nat.mul_comm])
  have hm : i % n < n := Nat.mod_lt _ hn
  have hm' : j % n < n := Nat.mod_lt _ hn
  unfold tiles
  rw [Nat.add_comm, (hx _ (rankOf_lt hi' hj')).2 _ _ hm' hm, prow_rankOf hj', pcol_rankOf hj']
  unfold tile
  by_cases h : i / n = j / n
  · rw [if_pos h, if_pos h, h, Nat.div_add_mod', ← h, Nat.div_add_mod']
  · rw [if_neg h, if_neg h, Nat.div_add_mod', Nat.div_add_mod']

omit [RCLike K] in
theorem tile_tiles {p n : Nat} (hn : 0 < n) (y : Nat → Arr K) (i j : Nat) {r s : Nat} (hr : r < n) (hs : s < n) :
    tile n i j (tiles p n y) r s = (y (rankOf p i j)).get (r + s * n) := by
  unfold tile tiles
  have q : ∀ u t, t < n → (u * n + t) / n = u ∧ (u * n + t) % n = t := fun u t ht => by
    rw [Nat.add_comm, Nat.add_mul_div_right _ _ hn, Nat.add_mul_mod_self_right,
      Nat.div_eq_of_lt ht, Nat.mod_eq_of_lt ht, Nat.zero_add]
    exact ⟨rfl, rfl⟩
  rw [(q i r hr).1, (q i r hr).2, (q j s hs).1, (q j s hs).2]

/-- What the procedure does for any matrix. -/
theorem wp_diagonalize {ev : PEigen K} (hev : PDiagonalizes ev) {p n : Nat} (hp : 0 < p) (hn : 0 < n)
    {sc sc' : Nat → Sched} (hsc : ∀ r, r < p * p → IsSched 0 (n - 1) (sc r) ∧ IsSched 0 (n - 1) (sc' r))
    (junk : Nat → Nat → K) {A V : Nat → Dense K} {a v0 : Spec.Mat K}
    (hA : Holds (fun A a => A.Rep n a) p n A a) (hV : Holds (fun A a => A.Rep n a) p n V v0)
    {w : Nat → Arr K} (hw : ∀ r, r < p * p → p * n ≤ (w r).size) :
    (diagonalize ev p (p * n) sc sc' junk A V w).wp (∃ x, ev p n x = none) (fun o =>
      ∃ (l : Nat → ℝ) (v g : Spec.Mat K),
        (∀ i j, i < p * n → j < p * n → g i j = if i / n = j / n then a j i else a i j) ∧
        (∀ r, r < p * p → ∀ i, i < p * n → (o r).1.get i = (l i : K)) ∧
        Holds (fun A a => A.Rep n a) p n (fun r => (o r).2) v ∧
        Spectral (p * n) (upperPart g) l v) := by
  have hdiv : p * n / p = n := Nat.mul_div_cancel_left n hp
  have hrep : ∀ (D : Nat → Dense K) (d : Spec.Mat K), Holds (fun A a => A.Rep n a) p n D d → ∀ r, r < p * p →
      (D r).Rep n (tile n (prow p r) (pcol p r) d) := by
    intro D d hD r hr
    have := hD _ _ (prow_lt hr) (pcol_lt hr)
    rwa [rankOf_coords] at this
  unfold diagonalize
  simp only [hdiv]
  rw [Res.wp_bind]
  refine wp_loop' (fun k (x : Nat → Arr K) => ∀ r, r < k → (x r).size = n * n ∧ ∀ i j, i < n → j < n →
      (x r).get (i * n + j) = if prow p r = pcol p r then tile n (prow p r) (pcol p r) a i j
        else tile n (prow p r) (pcol p r) a j i)
    (fun _ h => absurd h (Nat.not_lt_zero _)) ?_ ?_
  · intro k hk x hx
    rw [Res.wp_bind]
    refine Res.wp_mono (wp_eigenInput (hsc k hk).1 (junk k) (hrep A a hA k hk)) fun B hB => ?_
    rw [if_neg (by rw [hB.size, (hrep V v0 hV k hk).size]; omega)]
    refine (Res.wp_ok _).2 fun r hr => ?_
    rcases Nat.lt_succ_iff_lt_or_eq.1 hr with hr' | rfl
    · rw [upd_ne _ _ (show r ≠ k by omega)]
      exact hx r hr'
    · rw [upd_same]
      refine ⟨hB.size, fun i j hi hj => ?_⟩
      rw [hB.get i j hi hj]
      split <;> rfl
  · intro x hx
    cases hr : ev p n x with
    | none => exact ⟨x, hr⟩
    | some ey =>
      obtain ⟨e, y⟩ := ey
      simp only
      refine wp_loop' (fun k (o : Nat → Arr K × Dense K) => ∀ r, r < k →
          (∀ i, i < p * n → (o r).1.get i = (e.get i : K)) ∧
            (o r).2.Rep n (fun i j => (y r).get (i + j * n)))
        (fun _ h => absurd h (Nat.not_lt_zero _)) ?_ ?_
      · intro k hk o ho
        rw [Res.wp_bind]
        refine Res.wp_mono (wp_eigenOutput (hsc k hk).2 (hev.vals p n x e y hr)
          (hev.vecs p n x e y hr k hk) (hw k hk) (hrep V v0 hV k hk).dim) fun q hq => ?_
        refine (Res.wp_ok _).2 fun r hr => ?_
        rcases Nat.lt_succ_iff_lt_or_eq.1 hr with hr' | rfl
        · rw [upd_ne _ _ (show r ≠ k by omega)]
          exact ho r hr'
        · rw [upd_same]
          exact hq
      · intro o ho
        refine ⟨e.get, tiles p n y, tiles p n x, ?_, fun r hr => (ho r hr).1, ?_,
          hev.spectral p n x e y (fun r hr => le_of_eq (hx r hr).1.symm) hr⟩
        · exact fun i j hi hj => tiles_input hn hx hi hj
        · intro i j hi hj
          have := (ho _ (rankOf_lt hi hj)).2
          refine ⟨this.dim, this.size, fun r s hr hs => ?_⟩
          rw [this.get r s hr hs, tile_tiles hn y i j hr hs]

/-- The same for tiles that are not dense. -/
theorem wp_diagonalizeVia {τ : Type} {T : TileOps τ K} {n : Nat} {Rep RepO : τ → Spec.Mat K → Prop}
    (hT : T.Exact n Rep RepO) {ev : PEigen K} (hev : PDiagonalizes ev) {p : Nat} (hp : 0 < p) (hn : 0 < n)
    {sc : Nat → Sched} (hsc : ∀ r, r < p * p → IsSched 0 (n - 1) (sc r)) {A V : Nat → τ} {a v0 : Spec.Mat K}
    (hA : Holds Rep p n A a) (hV : Holds Rep p n V v0)
    {w : Nat → Arr K} (hw : ∀ r, r < p * p → p * n ≤ (w r).size) :
    (diagonalizeVia T ev p (p * n) sc A V w).wp (∃ x, ev p n x = none) (fun o =>
      ∃ (l : Nat → ℝ) (v g : Spec.Mat K),
        (∀ i j, i < p * n → j < p * n → g i j = if i / n = j / n then a j i else a i j) ∧
        (∀ r, r < p * p → ∀ i, i < p * n → (o r).1.get i = (l i : K)) ∧
        Holds Rep p n (fun r => (o r).2) v ∧ Spectral (p * n) (upperPart g) l v) := by
  have hdiv : p * n / p = n := Nat.mul_div_cancel_left n hp
  have hrep : ∀ (D : Nat → τ) (d : Spec.Mat K), Holds Rep p n D d → ∀ r, r < p * p →
      Rep (D r) (tile n (prow p r) (pcol p r) d) := by
    intro D d hD r hr
    have := hD _ _ (prow_lt hr) (pcol_lt hr)
    rwa [rankOf_coords] at this
  unfold diagonalizeVia
  simp only [hdiv]
  rw [Res.wp_bind]
  refine wp_loop' (fun k (x : Nat → Arr K × Dense K) => ∀ r, r < k → ((x r).1.size = n * n ∧ ∀ i j, i < n →
      j < n → (x r).1.get (i * n + j) = if prow p r = pcol p r then tile n (prow p r) (pcol p r) a i j
        else tile n (prow p r) (pcol p r) a j i) ∧ (x r).2.N = n)
    (fun _ h => absurd h (Nat.not_lt_zero _)) ?_ ?_
  · intro k hk x hx
    rw [Res.wp_bind]
    refine Res.wp_mono (wp_eigenInputVia hT (hsc k hk) (hrep A a hA k hk) (hrep V v0 hV k hk)) fun B hB => ?_
    rw [if_neg (by rw [hB.1.size, hB.2.size]; omega)]
    refine (Res.wp_ok _).2 fun r hr => ?_
    rcases Nat.lt_succ_iff_lt_or_eq.1 hr with hr' | rfl
    · rw [upd_ne _ _ (show r ≠ k by omega)]
      exact hx r hr'
    · rw [upd_same]
      refine ⟨⟨hB.1.size, fun i j hi hj => ?_⟩, hB.2.dim⟩
      rw [hB.1.get i j hi hj]
      split <;> rfl
  · intro x hx
    cases hr : ev p n (fun r => (x r).1) with
    | none => exact ⟨_, hr⟩
    | some ey =>
      obtain ⟨e, y⟩ := ey
      simp only
      refine wp_loop' (fun k (o : Nat → Arr K × τ) => ∀ r, r < k →
          (∀ i, i < p * n → (o r).1.get i = (e.get i : K)) ∧
            Rep (o r).2 (fun i j => (y r).get (i + j * n)))
        (fun _ h => absurd h (Nat.not_lt_zero _)) ?_ ?_
      · intro k hk o ho
        rw [Res.wp_bind]
        refine Res.wp_mono (wp_eigenOutputVia hT (hev.vals p n _ e y hr)
          (hev.vecs p n _ e y hr k hk) (hw k hk) (hx k hk).2) fun q hq => ?_
        refine (Res.wp_ok _).2 fun r hr => ?_
        rcases Nat.lt_succ_iff_lt_or_eq.1 hr with hr' | rfl
        · rw [upd_ne _ _ (show r ≠ k by omega)]
          exact ho r hr'
        · rw [upd_same]
          exact hq
      · intro o ho
        refine ⟨e.get, tiles p n y, tiles p n fun r => (x r).1, ?_, fun r hr => (ho r hr).1, ?_,
          hev.spectral p n _ e y (fun r hr => le_of_eq (hx r hr).1.1.symm) hr⟩
        · exact fun i j hi hj => tiles_input hn (fun r hr => (hx r hr).1) hi hj
        · intro i j hi hj
          exact hT.congr (ho _ (rankOf_lt hi hj)).2 fun r s hr hs => (tile_tiles hn y i j hr hs).symm

end Bml.Dist
