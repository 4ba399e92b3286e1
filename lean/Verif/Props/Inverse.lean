import Verif.LapackSpec
import Verif.Wlp
import Verif.Props.FortranDense
import Verif.Props.Ellblock3

/-!
# C74: `bml_inverse`
-/

namespace Bml.Props

open Bml Bml.Lapack

variable {R : Type} [CommRing R]

/-- `nonzero` is the test for magnitude above zero. -/
def TestsNonzero (nonzero : R → Bool) : Prop := ∀ x, nonzero x = true ↔ x ≠ 0

theorem TestsNonzero.keep {nonzero : R → Bool} (h : TestsNonzero nonzero) (x : R) :
    Spec.keep nonzero x = x := by
  unfold Spec.keep
  by_cases hx : x = 0
  · rw [hx]; split <;> rfl
  · rw [if_pos ((h x).2 hx)]

omit [CommRing R] in
theorem rowCount_congr {big : R → Bool} {N : Nat} {a b : Spec.Mat R} (h : Spec.Eq N a b) {i : Nat}
    (hi : i < N) : Spec.rowCount big N a i = Spec.rowCount big N b i := by
  unfold Spec.rowCount
  congr 1
  refine Finset.filter_congr fun j hj => ?_
  rw [h i j hi (Finset.mem_range.1 hj)]

/-- The dense steps shared by all formats: from the row-major array `x` of the elements of `a` to a
row-major array with the elements of the inverse. -/
theorem inverse_core {inv : Invert R} (hinv : Inverts inv) {N : Nat} {a : Spec.Mat R} {x : Arr R}
    (hx : x.size = N * N) (hg : ∀ i j, i < N → j < N → x.get (i * N + j) = a i j) (junk : Nat → R) :
    ∃ D D' y, Dense.importDense .rowMajor N x = .ok D ∧ inverseInplace inv D = .ok D' ∧
      D'.exportDense .rowMajor junk = .ok y ∧ y.size = N * N ∧
      ∀ b, Spec.IsInverse N a b → Spec.IsInverse N a (fun i j => y.get (i * N + j)) := by
  obtain ⟨D, e, hD⟩ := Dense.exists_of_wp (Dense.wp_import (R := R) .rowMajor (le_of_eq hx.symm))
  have hR := Dense.represents_iff.1 hD
  have hN : D.N = N := hR.dim
  have hs : D.mat.size = N * N := hR.size
  have hs' : (inv N D.mat).size = N * N := (hinv.size N D.mat (le_of_eq hs.symm)).trans hs
  obtain ⟨y, e', hy, hg'⟩ := Res.wp_exists (Dense.wp_export (E := False)
    (A := { D with mat := inv D.N D.mat }) (N := N)
    (a := fun i j => (inv N D.mat).get (i * N + j)) ⟨hN, by rw [hN]; exact hs',
      fun i j hi hj => by rw [hN]⟩ .rowMajor junk)
  refine ⟨D, _, y, e, ?_, e', hy, fun b hb => ?_⟩
  · unfold inverseInplace
    rw [if_neg (by rw [hN, hs]; omega)]
  · have hcol : Spec.Eq N (Spec.transpose a) (colMat N D.mat) := by
      intro i j hi hj
      show a j i = D.mat.get (i + j * N)
      rw [Nat.add_comm, hR.get j i hj hi]
      exact (hg j i hj hi).symm
    have h1 := hinv.inverse N D.mat (Spec.transpose b) (le_of_eq hs.symm)
      (hb.transpose.congr hcol fun _ _ _ _ => rfl)
    have h2 := (h1.congr (fun i j hi hj => (hcol i j hi hj).symm) fun _ _ _ _ => rfl).transpose
    refine h2.congr (fun _ _ _ _ => rfl) ?_
    intro i j hi hj
    show (inv N D.mat).get (j + i * N) = y.get (i * N + j)
    rw [Nat.add_comm]
    exact (hg' i j hi hj).symm

/-- **C74**, dense: the inverse of a matrix that has one.  The argument is only read. -/
theorem C74_dense {inv : Invert R} (hinv : Inverts inv) {N : Nat} {A : Dense R} {a b : Spec.Mat R}
    (hA : A.Represents N a) (hb : Spec.IsInverse N a b) (junk : Nat → R) :
    ∃ B, inverseDense inv junk A = .ok B ∧ B.Represents N b := by
  obtain ⟨D, e, hD⟩ := C07_dense_copy_new hA junk
  have hR := Dense.represents_iff.1 hD
  have hN : D.N = N := hR.dim
  have hs : D.mat.size = N * N := hR.size
  have hcol : Spec.Eq N (Spec.transpose a) (colMat N D.mat) := by
    intro i j hi hj
    show a j i = D.mat.get (i + j * N)
    rw [Nat.add_comm, hR.get j i hj hi]
  have h1 := hinv.inverse N D.mat (Spec.transpose b) (le_of_eq hs.symm)
    (hb.transpose.congr hcol fun _ _ _ _ => rfl)
  have h2 := (hb.transpose.congr hcol fun _ _ _ _ => rfl).unique h1
  refine ⟨{ D with mat := inv D.N D.mat }, ?_, Dense.represents_iff.2 ⟨hN, ?_, ?_⟩⟩
  · unfold inverseDense inverseInplace
    rw [e, Res.bind_ok, if_neg (by rw [hN, hs]; omega)]
  · rw [hN]
    exact (hinv.size N D.mat (le_of_eq hs.symm)).trans hs
  · intro i j hi hj
    rw [hN]
    have := h2 j i hj hi
    rw [show i * N + j = j + i * N from Nat.add_comm _ _]
    exact this.symm

/-- **C74 (partial)**, ELLPACK: the rows of the inverse must fit into the row capacity of the argument.
Missing: they need not fit, and then the result is undefined (`C74_ellpack_overfull`). -/
theorem C74_ellpack_partial {inv : Invert R} (hinv : Inverts inv) {nonzero : R → Bool}
    (hz : TestsNonzero nonzero) {N : Nat} {A : Ell R} {a b : Spec.Mat R} (hA : A.Represents N a)
    (hb : Spec.IsInverse N a b) (hM : 0 < A.M)
    (hfit : ∀ i, i < N → Spec.rowCount nonzero N b i ≤ A.M) {sc sc' : Sched}
    (hsc : IsSched 0 N sc) (hsc' : IsSched 0 N sc') (junk : Nat → R) :
    ∃ B, inverseEllpack inv nonzero sc sc' junk A = .ok B ∧ B.M = A.M ∧ B.Represents N b := by
  obtain ⟨x, e, hx, hg⟩ := C06_export hA .rowMajor hsc
  obtain ⟨D, D', y, e1, e2, e3, hy, hg'⟩ := inverse_core hinv hx hg junk
  have hyb : ∀ i j, i < N → j < N → y.get (Order.rowMajor.addr i j N) = b i j :=
    (hg' b hb).unique hb
  obtain ⟨B, e4, h1, h2⟩ := C06_import_partial hM (order := .rowMajor) (le_of_eq hy.symm) nonzero hsc'
    (by
      intro i hi
      refine le_trans (le_of_eq ?_) (hfit i hi)
      exact rowCount_congr hyb hi)
  refine ⟨B, ?_, h1, h2.congr fun i j hi hj => ?_⟩
  · unfold inverseEllpack
    rw [e, Res.bind_ok, (Ell.represents_iff.1 hA).dim, e1, Res.bind_ok, e2, Res.bind_ok, e3,
      Res.bind_ok, e4]
  · exact (hz.keep _).trans (hyb i j hi hj)

/-- **C74**, CSR. -/
theorem C74_csr {inv : Invert R} (hinv : Inverts inv) {nonzero : R → Bool}
    (hz : TestsNonzero nonzero) {N : Nat} {A : Csr R} {a b : Spec.Mat R} (hA : A.Represents N a)
    (hb : Spec.IsInverse N a b) {sc sc' : Sched}
    (hsc : IsSched 0 N sc) (hsc' : IsSched 0 N sc') (junk : Nat → R) :
    ∃ B, inverseCsr inv nonzero sc sc' junk A = .ok B ∧ B.Represents N b := by
  obtain ⟨x, e, hx, hg⟩ :=
    Res.wp_exists (Csr.wp_exportDense (E := False) (Csr.represents_iff.1 hA) .rowMajor hsc)
  obtain ⟨D, D', y, e1, e2, e3, hy, hg'⟩ := inverse_core hinv hx hg junk
  have hyb : ∀ i j, i < N → j < N → y.get (Order.rowMajor.addr i j N) = b i j :=
    (hg' b hb).unique hb
  obtain ⟨B, -, e4, h2, -⟩ := C06_csr_round_trip .rowMajor .rowMajor (le_of_eq hy.symm) nonzero A.M
    hsc' hsc'
  refine ⟨B, ?_, h2.congr fun i j hi hj => ?_⟩
  · unfold inverseCsr
    rw [e, Res.bind_ok, (Csr.represents_iff.1 hA).dim, e1, Res.bind_ok, e2, Res.bind_ok, e3,
      Res.bind_ok, e4]
  · exact (hz.keep _).trans (hyb i j hi hj)

/-- **C74 (partial)**, block-ELLPACK: `M ≤ N`, and the blocks of the inverse that are not zero must
fit.  `g` are the block sizes the library has in store for such a matrix. -/
theorem C74_ellblock_partial {inv : Invert R} (hinv : Inverts inv) {nonzero : R → Bool}
    (hz : TestsNonzero nonzero) {N : Nat} (hN : 0 < N) {A : EllB R} {a b : Spec.Mat R}
    (hA : A.Represents N a) (hpos : ∀ ib, ib < A.NB → 0 < A.bsize.get ib)
    (hb : Spec.IsInverse N a b) (hM : A.M ≤ N) {g : EllB.Glob} (hg : g.For N A.M)
    (junk : Nat → R) :
    ∃ g' bs, EllB.getBlockSizes g N A.M = .ok (g', bs) ∧
      (EllB.BlocksFit nonzero bs.get g'.nb g'.mb b →
        ∃ B, inverseEllblock inv nonzero g junk A = .ok (g', B) ∧ B.M = A.M ∧ B.Clean ∧
          B.Represents N b) := by
  obtain ⟨x, e, hx, hgx⟩ := C55_export hA hN hpos (addr := fun i j => ROWMAJOR i j N N) (Or.inl rfl)
  obtain ⟨D, D', y, e1, e2, e3, hy, hg'⟩ := inverse_core hinv hx hgx junk
  have hyb : ∀ i j, i < N → j < N → y.get (ROWMAJOR i j N N) = b i j := (hg' b hb).unique hb
  obtain ⟨g', bs, e4, hset, h⟩ := EllB.wp_importDense (R := R) (E := False) hg hM nonzero (junk := junk)
    (dense := y) (addr := fun i j => ROWMAJOR i j N N)
    (fun i j hi hj => by rw [hy]; exact addr_lt hi hj)
  have hsum : EllB.off bs.get g'.nb = N := hset.sum
  refine ⟨g', bs, e4, fun hfit => ?_⟩
  obtain ⟨⟨g2, B⟩, e5, rfl, L, h1, h2, h3⟩ := Res.wp_exists (h (by
    intro ib hib
    obtain ⟨S, hS, hm⟩ := hfit ib hib
    refine ⟨S, hS, fun jb ii jj hjb hii hjj hbig => hm jb ii jj hjb hii hjj ?_⟩
    rw [← hyb _ _ (by rw [← hsum]; exact EllB.off_lt hib hii)
      (by rw [← hsum]; exact EllB.off_lt hjb hjj)]
    exact hbig))
  refine ⟨B, ?_, h3.M, h2, EllB.represents_iff.2 ⟨L, h1.congr fun i j hi hj => ?_⟩⟩
  · unfold inverseEllblock
    have hdim : A.N = N := by
      obtain ⟨L, h⟩ := EllB.represents_iff.1 hA
      exact h.dim
    rw [hdim, e, Res.bind_ok, e1, Res.bind_ok, e2, Res.bind_ok, e3, Res.bind_ok, e5]
  · rw [keepBlk_exact hsum (fun x hx => by
      by_contra hc
      rw [(hz x).2 hc] at hx
      cases hx) _ i j hi hj]
    exact hyb i j hi hj

/-! ## ELLPACK: the inverse need not fit -/

theorem wlp_forList_pre {ι σ : Type} {l : List ι} {s : σ} {f : ι → σ → Res σ} (I : List ι → σ → Prop)
    (h0 : I [] s)
    (hs : ∀ pre i, i ∈ l → ∀ s, I pre s → (f i s).wlp (I (pre ++ [i]))) :
    (forList l s f).wlp (I l) := by
  suffices H : ∀ todo done s, (∀ i ∈ todo, i ∈ l) → I done s →
      (forList todo s f).wlp (I (done ++ todo)) by
    simpa using H l [] s (fun _ h => h) h0
  intro todo
  induction todo with
  | nil => intro done s _ h; simpa using Res.wlp_ok.2 h
  | cons i todo ih =>
    intro done s hm h
    show (f i s >>= fun s => forList todo s f).wlp _
    rw [Res.wlp_bind]
    refine Res.wlp_mono (hs done i (hm i List.mem_cons_self) s h) fun s' h' => ?_
    have := ih (done ++ [i]) s' (fun k hk => hm k (List.mem_cons_of_mem _ hk)) h'
    simpa using this

theorem wlp_read {α : Type} {x : Arr α} {k : Nat} {Q : α → Prop} (h : k < x.size → Q (x.get k)) :
    (x.read k).wlp Q := by
  intro v e
  by_cases hk : k < x.size
  · rw [Arr.read_ok hk] at e
    cases e
    exact h hk
  · unfold Arr.read at e
    rw [if_neg hk] at e
    cases e

theorem wlp_write {α : Type} {x : Arr α} {k : Nat} {v : α} {Q : Arr α → Prop}
    (h : k < x.size → Q ⟨x.size, upd x.get k v⟩) : (x.write k v).wlp Q := by
  intro y e
  by_cases hk : k < x.size
  · rw [Arr.write_ok v hk] at e
    cases e
    exact h hk
  · unfold Arr.write at e
    rw [if_neg hk] at e
    cases e

/-- **C06**, ELLPACK: if the last row has more elements above threshold than the row capacity, the
import does not return normally. -/
theorem C06_import_last_row {N M : Nat} {order : Order} {D : Arr R} {big : R → Bool} {sc : Sched}
    (hsc : IsSched 0 (N + 1) sc)
    (hover : M < Spec.rowCount big (N + 1) (fun i j => D.get (order.addr i j (N + 1))) N) (A : Ell R) :
    Ell.importDense order (N + 1) D big M sc ≠ .ok A := by
  let cnt : Nat → Nat → Nat := fun i n =>
    ((Finset.range n).filter (fun j => big (D.get (order.addr i j (N + 1))) = true)).card
  have hcs : ∀ i n, cnt i (n + 1) =
      cnt i n + if big (D.get (order.addr i n (N + 1))) = true then 1 else 0 := by
    intro i n
    show ((Finset.range (n + 1)).filter _).card = ((Finset.range n).filter _).card + _
    rw [Finset.range_add_one, Finset.filter_insert]
    split
    · rw [Finset.card_insert_of_notMem (by simp)]
    · rfl
  have key : (Ell.importDense order (N + 1) D big M sc).wlp (fun _ => False) := by
    unfold Ell.importDense
    rw [Res.wlp_bind]
    unfold Ell.newZero
    split
    swap
    · exact Res.wlp_error
    refine Res.wlp_ok.2 ?_
    refine Res.wlp_mono (wlp_forList_pre (fun (pre : List (Nat × Nat)) (B : Ell R) =>
      (B.N = N + 1 ∧ B.M = M ∧ B.val.size = (N + 1) * M) ∧ N ∉ pre.map Prod.snd)
      ⟨⟨rfl, rfl, rfl⟩, by simp⟩ ?_) ?_
    · rintro pre ⟨t, i⟩ _ B ⟨⟨h1, h2, h3⟩, h4⟩
      simp only
      unfold Ell.importRow Ell.setNnz
      simp only [Res.wlp_bind]
      refine wlp_write fun hi => Res.wlp_ok.2 ?_
      simp only
      rw [h1]
      refine Res.wlp_mono (wlp_loop (fun n (B : Ell R) =>
        (B.N = N + 1 ∧ B.M = M ∧ B.val.size = (N + 1) * M) ∧ B.nnz.get i = cnt i n ∧
        (i = N → cnt i n ≤ M)) ⟨⟨rfl, h2, h3⟩, ?_, fun _ => Nat.zero_le _⟩ ?_) ?_
      · simp only [upd_same]; rfl
      · rintro j _ C ⟨⟨c1, c2, c3⟩, c4, c5⟩
        rw [Res.wlp_bind]
        refine wlp_read fun _ => ?_
        rw [c1]
        split
        · rename_i hb
          unfold Ell.putEntry
          simp only [Res.wlp_bind]
          refine wlp_read fun _ => wlp_write fun hv => wlp_write fun _ => Res.wlp_ok.2 ?_
          refine wlp_write fun _ => Res.wlp_ok.2 ⟨⟨c1, c2, c3⟩, ?_, ?_⟩
          · simp only [upd_same]
            rw [hcs, if_pos hb, c4]
          · rintro rfl
            rw [hcs, if_pos hb, ← c4]
            rw [c3, c2] at hv
            unfold ROWMAJOR at hv
            rw [Nat.add_mul, Nat.one_mul] at hv
            omega
        · rename_i hb
          refine Res.wlp_ok.2 ⟨⟨c1, c2, c3⟩, ?_, fun e => ?_⟩
          · rw [hcs, if_neg hb, c4]; rfl
          · rw [hcs, if_neg hb]; exact c5 e
      · rintro C ⟨c1, -, c3⟩
        refine ⟨c1, ?_⟩
        rw [List.map_append, List.mem_append]
        rintro (h | h)
        · exact h4 h
        · have : N = i := by simpa using h
          have := c3 this.symm
          rw [← ‹N = i›] at this
          exact absurd hover (not_lt.2 this)
    · rintro B ⟨-, h⟩
      exact h ((hsc.mem N).2 ⟨Nat.zero_le _, Nat.lt_succ_self _⟩)
  exact fun e => key A e

/-- **C74 fails** for ELLPACK matrices whose inverse has more elements in its last row than the row
capacity of the matrix: the call does not return normally, it writes past the end of the arrays. -/
theorem C74_ellpack_overfull {inv : Invert R} (hinv : Inverts inv) {nonzero : R → Bool}
    {N : Nat} {A : Ell R} {a b : Spec.Mat R} (hA : A.Represents (N + 1) a)
    (hb : Spec.IsInverse (N + 1) a b) (hover : A.M < Spec.rowCount nonzero (N + 1) b N)
    {sc sc' : Sched} (hsc : IsSched 0 (N + 1) sc) (hsc' : IsSched 0 (N + 1) sc') (junk : Nat → R)
    (B : Ell R) : inverseEllpack inv nonzero sc sc' junk A ≠ .ok B := by
  obtain ⟨x, e, hx, hg⟩ := C06_export hA .rowMajor hsc
  obtain ⟨D, D', y, e1, e2, e3, hy, hg'⟩ := inverse_core hinv hx hg junk
  have hyb : ∀ i j, i < N + 1 → j < N + 1 → y.get (Order.rowMajor.addr i j (N + 1)) = b i j :=
    (hg' b hb).unique hb
  unfold inverseEllpack
  rw [e, Res.bind_ok, (Ell.represents_iff.1 hA).dim, e1, Res.bind_ok, e2, Res.bind_ok, e3,
    Res.bind_ok]
  refine C06_import_last_row hsc' ?_ B
  rw [rowCount_congr hyb (Nat.lt_succ_self N)]
  exact hover

/-! ## Singular matrices -/

/-- **C74 fails** for singular matrices in that it does not report them: whatever LAPACK leaves in the
array, `bml_inverse` of a dense matrix returns it as the inverse. -/
theorem C74_singular_unnoticed {inv : Invert R}
    (hsize : ∀ n x, n * n ≤ x.size → (inv n x).size = x.size) {N : Nat} {A : Dense R}
    {a : Spec.Mat R} (hA : A.Represents N a) (junk : Nat → R) :
    ∃ B b, inverseDense inv junk A = .ok B ∧ B.Represents N b := by
  obtain ⟨D, e, hD⟩ := C07_dense_copy_new hA junk
  have hR := Dense.represents_iff.1 hD
  have hN : D.N = N := hR.dim
  have hs : D.mat.size = N * N := hR.size
  refine ⟨{ D with mat := inv D.N D.mat }, fun i j => (inv N D.mat).get (i * N + j), ?_,
    Dense.represents_iff.2 ⟨hN, ?_, fun i j _ _ => ?_⟩⟩
  · unfold inverseDense inverseInplace
    rw [e, Res.bind_ok, if_neg (by rw [hN, hs]; omega)]
  · rw [hN]
    exact (hsize N D.mat (le_of_eq hs.symm)).trans hs
  · simp only [hN]

/-! ## Examples -/

open Classical in
/-- A LAPACK: the inverse if there is one, otherwise the array as it was. -/
noncomputable def exInv : Invert R := fun n x =>
  if h : n * n ≤ x.size ∧ ∃ b, Spec.IsInverse n (colMat n x) b then
    ⟨x.size, fun q => h.2.choose (q % n) (q / n)⟩
  else x

theorem exInv_inverts : Inverts (exInv : Invert R) := by
  refine ⟨fun n x _ => ?_, fun n x b hs hb => ?_⟩
  · unfold exInv
    split <;> rfl
  · unfold exInv
    have h : n * n ≤ x.size ∧ ∃ b, Spec.IsInverse n (colMat n x) b := ⟨hs, b, hb⟩
    rw [dif_pos h]
    refine h.2.choose_spec.congr (fun _ _ _ _ => rfl) fun i j hi hj => ?_
    show h.2.choose i j = h.2.choose ((i + j * n) % n) ((i + j * n) / n)
    rw [Nat.add_mul_mod_self_right, Nat.mod_eq_of_lt hi, Nat.add_mul_div_right _ _ (by omega),
      Nat.div_eq_of_lt hi, Nat.zero_add]

/-- `[[2,1],[5,3]]` and its inverse. -/
def exI2 : Spec.Mat ℚ := fun i j => if i = 0 then (if j = 0 then 2 else 1) else (if j = 0 then 5 else 3)

/-- See `exI2`. -/
def exI2inv : Spec.Mat ℚ := fun i j =>
  if i = 0 then (if j = 0 then 3 else -1) else (if j = 0 then -5 else 2)

theorem exI2_inverse : Spec.IsInverse 2 exI2 exI2inv := by
  constructor <;>
  · intro i j hi hj
    interval_cases i <;> interval_cases j <;>
      norm_num [Spec.mul, Spec.one, Finset.sum_range_succ, exI2, exI2inv]

/-- `[[1,1,0],[0,1,1],[1,0,1]]`, two elements in every row. -/
def exI3 : Spec.Mat ℚ := fun i j => if j = i ∨ j = (i + 1) % 3 then 1 else 0

/-- Its inverse has no zeros. -/
def exI3inv : Spec.Mat ℚ := fun i j => if j = (i + 1) % 3 then -1/2 else 1/2

theorem exI3_inverse : Spec.IsInverse 3 exI3 exI3inv := by
  constructor <;>
  · intro i j hi hj
    interval_cases i <;> interval_cases j <;>
      norm_num [Spec.mul, Spec.one, Finset.sum_range_succ, exI3, exI3inv]

/-- The test for magnitude above zero. -/
def nzQ (x : ℚ) : Bool := decide (x ≠ 0)

theorem nzQ_tests : TestsNonzero nzQ := fun _ => decide_eq_true_iff

example : ∃ B, inverseDense exInv (fun _ => 7) (Dense.ofMat 2 exI2) = .ok B ∧
    B.getElement 0 1 = .ok (-1) ∧ B.getElement 1 0 = .ok (-5) := by
  obtain ⟨B, e, h⟩ := C74_dense exInv_inverts (Dense.ofMat_rep 2 exI2) exI2_inverse (fun _ => 7)
  exact ⟨B, e, h.get 0 1 (by decide) (by decide), h.get 1 0 (by decide) (by decide)⟩

/-- The rows of `exI2`. -/
def exI2row (i : Nat) : SRow ℚ := if i = 0 then [(0, 2), (1, 1)] else [(1, 3), (0, 5)]

theorem exI2row_den : Spec.Eq 2 (fun i j => (exI2row i).den j) exI2 := by
  intro i j hi hj
  interval_cases i <;> interval_cases j <;> decide +kernel

theorem exI2row_good : ∀ i, i < 2 → (exI2row i).length ≤ 2 ∧ SRow.Good 2 (exI2row i) := by
  decide

example : ∃ B, inverseEllpack exInv nzQ [(0, 1), (1, 0)] (seqSched 0 2) (fun _ => 7)
      (Ell.ofRows 2 2 exI2row) = .ok B ∧ B.getElement 0 1 = .ok (-1) := by
  obtain ⟨B, e, -, h⟩ := C74_ellpack_partial exInv_inverts nzQ_tests
    ((Ell.ofRows_rep exI2row_good).congr exI2row_den) exI2_inverse (by decide)
    (fun i hi => (Finset.card_filter_le _ _).trans (by rw [Finset.card_range]; exact le_rfl))
    (sc := [(0, 1), (1, 0)]) (show List.Perm [1, 0] [0, 1] by decide) (isSched_seq 0 2) (fun _ => 7)
  exact ⟨B, e, h.get 0 1 (by decide) (by decide)⟩

example : ∃ B, inverseCsr exInv nzQ [(0, 1), (1, 0)] (seqSched 0 2) (fun _ => 7)
      (Csr.ofRows 2 1 exI2row) = .ok B ∧ B.getElement 1 0 = .ok (-5) := by
  obtain ⟨B, e, h⟩ := C74_csr exInv_inverts nzQ_tests
    ((Csr.ofRows_rep fun i hi => (exI2row_good i hi).2).congr exI2row_den) exI2_inverse
    (sc := [(0, 1), (1, 0)]) (show List.Perm [1, 0] [0, 1] by decide) (isSched_seq 0 2) (fun _ => 7)
  exact ⟨B, e, h.get 1 0 (by decide) (by decide)⟩

example : ∃ A g' B, runB [(⟨0, 0, 2⟩ : BWrite ℚ), ⟨0, 1, 1⟩, ⟨1, 0, 5⟩, ⟨1, 1, 3⟩] (newB ℚ 2 2) = .ok A ∧
    inverseEllblock exInv nzQ EllB.Glob.init (fun _ => 7) A = .ok (g', B) ∧
    B.getElement 1 0 = .ok (-5) := by
  obtain ⟨h1, h2, h3, -⟩ := newB_spec (R := ℚ) (N := 2) (M := 2) le_rfl (by decide)
  obtain ⟨A, eA, -, hM, hA⟩ := C38_history_full h1 h2 (by decide)
    [(⟨0, 0, 2⟩ : BWrite ℚ), ⟨0, 1, 1⟩, ⟨1, 0, 5⟩, ⟨1, 1, 3⟩] (by decide)
  have hA' : A.Represents 2 exI2 := by
    obtain ⟨L, hL⟩ := EllB.represents_iff.1 hA
    refine EllB.represents_iff.2 ⟨L, hL.congr ?_⟩
    intro i j hi hj
    interval_cases i <;> interval_cases j <;> decide +kernel
  have hbs : A.NB = 1 ∧ A.bsize.get 0 = 2 := by
    cases eA
    exact ⟨rfl, rfl⟩
  have hMA : A.M = 2 := hM.trans h3
  obtain ⟨g', bs, e1, h⟩ := C74_ellblock_partial exInv_inverts nzQ_tests (by decide) hA' (by
    intro ib hib
    rw [hbs.1] at hib
    interval_cases ib
    rw [hbs.2]; decide) exI2_inverse (by rw [hMA]) (g := EllB.Glob.init)
    (Or.inl ⟨rfl, by rw [hMA]; decide⟩) (fun _ => 7)
  rw [hMA] at e1
  cases e1
  obtain ⟨B, e, -, -, hB⟩ := h (EllB.blocksFit_of_le (by decide) _)
  exact ⟨A, _, B, eA, e, hB.get 1 0 (by decide) (by decide)⟩

/-- The rows of `exI3`. -/
def exI3row (i : Nat) : SRow ℚ := [(i, 1), ((i + 1) % 3, 1)]

/-- A matrix with two elements in every row and room for two; the inverse has three. -/
example (B : Ell ℚ) : inverseEllpack exInv nzQ (seqSched 0 3) (seqSched 0 3) (fun _ => 7)
    (Ell.ofRows 3 2 exI3row) ≠ .ok B := by
  have hr : (Ell.ofRows 3 2 exI3row).Represents 3 exI3 :=
    (Ell.ofRows_rep (L := exI3row) (by decide)).congr (by
      intro i j hi hj
      interval_cases i <;> interval_cases j <;> decide +kernel)
  refine C74_ellpack_overfull exInv_inverts (N := 2) hr exI3_inverse ?_ (isSched_seq 0 3)
    (isSched_seq 0 3) _ B
  show 2 < Spec.rowCount nzQ 3 exI3inv 2
  decide +kernel

/-- A singular matrix. -/
example : ∃ B b, inverseDense exInv (fun _ => 7) (Dense.ofMat 2 fun _ _ => (1 : ℚ)) = .ok B ∧
    B.Represents 2 b ∧ ¬ ∃ c, Spec.IsInverse 2 (fun _ _ => (1 : ℚ)) c := by
  obtain ⟨B, b, e, h⟩ := C74_singular_unnoticed (exInv_inverts (R := ℚ)).size
    (Dense.ofMat_rep 2 fun _ _ => (1 : ℚ)) (fun _ => 7)
  refine ⟨B, b, e, h, ?_⟩
  rintro ⟨c, hc, -⟩
  have h1 := hc 0 0 (by decide) (by decide)
  have h2 := hc 1 0 (by decide) (by decide)
  unfold Spec.mul Spec.one at h1 h2
  rw [h2] at h1
  simp at h1

end Bml.Props
