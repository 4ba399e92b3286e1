import Verif.Dense.Rep
import Verif.Ellpack.Normalize
import Verif.Props.Gemm
import Verif.Gershgorin

/-!
# Dense matrices: transposes, submatrices, arithmetic, reductions
-/

namespace Bml

namespace Dense

variable {R : Type} {E : Prop}

/-! ## Transposes -/

theorem wp_transposeNew {N lo hi : Nat} {A : Dense R} {a : Spec.Mat R} (hA : A.Rep N a)
    {sc : Sched} (hsc : IsSched lo hi sc) (hhi : hi ≤ N) (junk : Nat → R) :
    (transposeNew A sc junk).wp E (fun B => B.N = N ∧ B.mat.size = N * N ∧
      ∀ i j, lo ≤ i → i < hi → j < N → B.mat.get (i * N + j) = a j i) := by
  unfold transposeNew
  rw [Res.wp_bind, hA.dim]
  refine Res.wp_mono (wp_rowsLoop hsc (f := fun i j mat => do
    let v ← A.mat.read (ROWMAJOR j i N N)
    mat.write (ROWMAJOR i j N N) v) (fun i j => a j i) ?_) ?_
  · intro i j x' _ hi hj hs
    rw [Arr.read_ok (show ROWMAJOR j i N N < _ by rw [hA.size]; exact addr_lt hj (by omega)),
      Res.bind_ok, show A.mat.get (ROWMAJOR j i N N) = a j i from hA.get j i hj (by omega)]
    exact Arr.write_ok _ (by rw [hs]; exact addr_lt (show i < N by omega) hj)
  · rintro x ⟨h1, h2⟩
    rw [Res.wp_pure]
    refine ⟨rfl, h1, fun i j hl hi hj => ?_⟩
    simp only
    rw [h2 i j hj, if_pos ⟨hl, hi⟩]

/-- The cells of iteration `i` in the triangle loops: `(i,j)` and `(j,i)` with `j > i`. -/
def wing (N i p : Nat) : Prop := ∃ j, i + 1 ≤ j ∧ j < N ∧ (p = i * N + j ∨ p = j * N + i)

theorem wing_dis {N i i' p : Nat} (h : wing N i p) (h' : wing N i' p) : i = i' := by
  obtain ⟨j, h1, h2, h3⟩ := h
  obtain ⟨j', h1', h2', h3'⟩ := h'
  rcases h3 with rfl | rfl <;> rcases h3' with h | h
  · exact (addr_inj h2 h2' h).1
  · have := addr_inj h2 (by omega : i' < N) h; omega
  · have := addr_inj (by omega : i < N) h2' h; omega
  · exact (addr_inj (by omega : i < N) (by omega : i' < N) h).2

theorem not_wing_diag {N i k : Nat} (hk : k < N) : ¬ wing N i (k * N + k) := by
  rintro ⟨j, h1, h2, h | h⟩
  · have := addr_inj hk h2 h; omega
  · have := addr_inj hk (by omega : i < N) h; omega

theorem wing_of {N i j : Nat} (hi : i < N) (hj : j < N) (h : i ≠ j) :
    ∃ k, k < N - 1 ∧ wing N k (i * N + j) := by
  rcases Nat.lt_or_gt_of_ne h with h | h
  · exact ⟨i, by omega, j, h, hj, Or.inl rfl⟩
  · exact ⟨j, by omega, i, h, hi, Or.inr rfl⟩

/-- A loop over the pairs `i < j` that treats the two cells `(i,j)`, `(j,i)`: `g` is the new
matrix off the diagonal. -/
theorem wp_wings {N : Nat} {x : Arr R} (hx : x.size = N * N) {sc : Sched}
    (hsc : IsSched 0 (N - 1) sc) {f : Nat → Nat → Arr R → Res (Arr R)} (g : Spec.Mat R)
    (hf : ∀ i j x', i < j → j < N → x'.size = N * N →
      x'.get (i * N + j) = x.get (i * N + j) → x'.get (j * N + i) = x.get (j * N + i) →
      (f i j x').wp E (Filled1 (fun p => p = i * N + j ∨ p = j * N + i) (flat N g) x')) :
    (forList sc x fun ti x => loopFrom (ti.2 + 1) N x fun j x => f ti.2 j x).wp E
      (fun r => r.size = N * N ∧ ∀ i j, i < N → j < N → r.get (i * N + j) =
        if i = j then x.get (i * N + j) else g i j) := by
  refine Res.wp_mono (wp_fill hsc (wing N) (flat N g)
    (fun i i' p _ _ _ _ h h' => wing_dis h h') ?_) ?_
  · intro t i x' _ hi hs hown _
    refine Res.wp_mono (wp_fillFrom (fun j p => p = i * N + j ∨ p = j * N + i) (flat N g) ?_ ?_) ?_
    · rintro j j' p h1 h2 h1' h2' (rfl | rfl) (h | h)
      · omega
      · have := addr_inj h2 (by omega : i < N) h; omega
      · have := addr_inj (by omega : i < N) h2' h; omega
      · exact (addr_inj (by omega : i < N) (by omega : i < N) h).1
    · intro j x'' h1 h2 hs' hown' _
      refine hf i j x'' (by omega) h2 (by rw [hs', hs, hx]) ?_ ?_
      · rw [hown' _ (Or.inl rfl), hown _ ⟨j, h1, h2, Or.inl rfl⟩]
      · rw [hown' _ (Or.inr rfl), hown _ ⟨j, h1, h2, Or.inr rfl⟩]
    · rintro y ⟨h1, h2, h3⟩
      exact ⟨h1, fun p ⟨j, k1, k2, k3⟩ => h2 p ⟨j, k1, k2, k3⟩,
        fun p hp => h3 p (fun ⟨j, k1, k2, k3⟩ => hp ⟨j, k1, k2, k3⟩)⟩
  · rintro r ⟨h1, h2, h3⟩
    refine ⟨h1.trans hx, fun i j hi hj => ?_⟩
    by_cases h : i = j
    · subst h
      rw [if_pos rfl, h3 _ (fun k _ _ => not_wing_diag hi)]
    · rw [if_neg h]
      obtain ⟨k, hk, hw⟩ := wing_of hi hj h
      rw [h2 k _ (Nat.zero_le k) hk hw, flat_addr _ hj]

theorem wp_transpose {N : Nat} {A : Dense R} {a : Spec.Mat R} (hA : A.Rep N a) {sc : Sched}
    (hsc : IsSched 0 (N - 1) sc) :
    (transpose A sc).wp E (fun A' => A'.Rep N (Spec.transpose a)) := by
  unfold transpose
  rw [Res.wp_bind, hA.dim]
  refine Res.wp_mono (wp_wings hA.size hsc (f := fun i j mat => if i ≠ j then do
      let tmp ← mat.read (ROWMAJOR i j N N)
      let v ← mat.read (ROWMAJOR j i N N)
      let mat ← mat.write (ROWMAJOR i j N N) v
      mat.write (ROWMAJOR j i N N) tmp
    else pure mat) (Spec.transpose a) ?_) ?_
  · intro i j x' hij hj hs h1 h2
    have hi : i < N := by omega
    have a1 : ROWMAJOR i j N N < N * N := addr_lt hi hj
    have a2 : ROWMAJOR j i N N < N * N := addr_lt hj hi
    rw [if_pos (by omega), show ROWMAJOR i j N N = i * N + j from rfl,
      show ROWMAJOR j i N N = j * N + i from rfl, Arr.read_ok (by rw [hs]; exact a1), Res.bind_ok,
      Arr.read_ok (by rw [hs]; exact a2), Res.bind_ok, Arr.write_ok _ (by rw [hs]; exact a1),
      Res.bind_ok, Arr.wp_write]
    refine ⟨by simp only; rw [hs]; exact a2, rfl, ?_, ?_⟩
    · simp only [upd]
      rintro p (rfl | rfl)
      · rw [if_neg (fun he => by have := addr_inj (i := i) (i' := j) hj hi he; omega), if_pos rfl, h2,
          hA.get j i hj hi, flat_addr _ hj]
        rfl
      · rw [if_pos rfl, h1, hA.get i j hi hj, flat_addr _ hi]
        rfl
    · intro p hp
      simp only [upd]
      rw [if_neg (fun he => hp (Or.inr he)), if_neg (fun he => hp (Or.inl he))]
  · rintro x ⟨h1, h2⟩
    rw [Res.wp_pure]
    refine ⟨rfl, h1, fun i j hi hj => ?_⟩
    simp only
    rw [h2 i j hi hj]
    by_cases h : i = j
    · subst h; rw [if_pos rfl, hA.get i i hi hi]; rfl
    · rw [if_neg h]

/-- The triangle that a triangle loop reads is kept, the other one is overwritten. -/
theorem wp_triangleLoop {N : Nat} {A : Dense R} {a : Spec.Mat R} (hA : A.Rep N a) (f : R → R)
    (upper : Bool) {sc : Sched} (hsc : IsSched 0 (N - 1) sc) :
    (triangleLoop f A upper sc).wp E (fun A' => A'.Rep N (fun i j =>
      if (if upper then j < i else i < j) then f (a j i) else a i j)) := by
  unfold triangleLoop
  rw [Res.wp_bind, hA.dim]
  refine Res.wp_mono (wp_wings hA.size hsc (f := fun i j mat => if upper then do
      let v ← mat.read (ROWMAJOR i j N N)
      mat.write (ROWMAJOR j i N N) (f v)
    else do
      let v ← mat.read (ROWMAJOR j i N N)
      mat.write (ROWMAJOR i j N N) (f v))
      (fun i j => if (if upper then j < i else i < j) then f (a j i) else a i j) ?_) ?_
  · intro i j x' hij hj hs h1 h2
    have hi : i < N := by omega
    have a1 : ROWMAJOR i j N N < N * N := addr_lt hi hj
    have a2 : ROWMAJOR j i N N < N * N := addr_lt hj hi
    have hne : i * N + j ≠ j * N + i := fun he => by have := addr_inj hj hi he; omega
    cases upper with
    | true =>
      simp only [if_true]
      rw [show ROWMAJOR i j N N = i * N + j from rfl, show ROWMAJOR j i N N = j * N + i from rfl,
        Arr.read_ok (by rw [hs]; exact a1), Res.bind_ok, Arr.wp_write]
      refine ⟨by rw [hs]; exact a2, rfl, ?_, ?_⟩
      · simp only [upd]
        rintro p (rfl | rfl)
        · rw [if_neg hne, h1, flat_addr _ hj, if_neg (by omega), hA.get i j hi hj]
        · rw [if_pos rfl, h1, flat_addr _ hi, if_pos hij, hA.get i j hi hj]
      · intro p hp
        simp only [upd]
        rw [if_neg (fun he => hp (Or.inr he))]
    | false =>
      simp only [Bool.false_eq_true, if_false]
      rw [show ROWMAJOR i j N N = i * N + j from rfl, show ROWMAJOR j i N N = j * N + i from rfl,
        Arr.read_ok (by rw [hs]; exact a2), Res.bind_ok, Arr.wp_write]
      refine ⟨by rw [hs]; exact a1, rfl, ?_, ?_⟩
      · simp only [upd]
        rintro p (rfl | rfl)
        · rw [if_pos rfl, h2, flat_addr _ hj, if_pos hij, hA.get j i hj hi]
        · rw [if_neg (Ne.symm hne), h2, flat_addr _ hi, if_neg (by omega), hA.get j i hj hi]
      · intro p hp
        simp only [upd]
        rw [if_neg (fun he => hp (Or.inl he))]
  · rintro x ⟨h1, h2⟩
    rw [Res.wp_pure]
    refine ⟨rfl, h1, fun i j hi hj => ?_⟩
    simp only
    rw [h2 i j hi hj]
    by_cases h : i = j
    · subst h
      rw [if_pos rfl, hA.get i i hi hi]
      cases upper <;> simp
    · rw [if_neg h]

/-! ## Submatrices -/

theorem wp_extract [Zero R] {N n irow icol : Nat} {A : Dense R} {a : Spec.Mat R} (hA : A.Rep N a)
    (hr : irow + n ≤ N) (hc : icol + n ≤ N) :
    (extractSubmatrix A irow icol n).wp E (fun B => B.Rep n (fun i j => a (irow + i) (icol + j))) := by
  unfold extractSubmatrix loopFrom
  rw [Res.wp_bind, hA.dim]
  have e1 : irow + n - irow = n := by omega
  have e2 : icol + n - icol = n := by omega
  rw [e1, e2]
  refine Res.wp_mono (wp_matLoop (f := fun i j mat => do
      let v ← A.mat.read (ROWMAJOR (irow + i) (icol + j) N N)
      mat.write (ROWMAJOR (irow + i - irow) (icol + j - icol) n n) v)
      (fun i j => a (irow + i) (icol + j)) ?_) ?_
  · intro i j x hi hj hs
    rw [Arr.read_ok (show ROWMAJOR (irow + i) (icol + j) N N < _ by
        rw [hA.size]; exact addr_lt (by omega) (by omega)), Res.bind_ok, Nat.add_sub_cancel_left,
      Nat.add_sub_cancel_left, show A.mat.get (ROWMAJOR (irow + i) (icol + j) N N) =
        a (irow + i) (icol + j) from hA.get _ _ (by omega) (by omega)]
    exact Arr.write_ok _ (by rw [hs]; exact addr_lt hi hj)
  · rintro x ⟨h1, h2⟩
    exact ⟨rfl, h1, h2⟩

theorem wp_assign {N n irow icol : Nat} {A B : Dense R} {a b : Spec.Mat R} (hA : A.Rep N a)
    (hB : B.Rep n b) (hr : irow + n ≤ N) (hc : icol + n ≤ N) :
    (assignSubmatrix A B irow icol).wp E (fun A' => A'.Rep N (fun i j =>
      if (irow ≤ i ∧ i < irow + n) ∧ (icol ≤ j ∧ j < icol + n) then b (i - irow) (j - icol)
      else a i j)) := by
  unfold assignSubmatrix
  rw [Res.wp_bind, hA.dim, hB.dim]
  refine Res.wp_mono (wp_fillLoop (fun i p => (i + irow) * N + icol ≤ p ∧
      p < (i + irow) * N + icol + n) (flat N fun i j => b (i - irow) (j - icol)) ?_ ?_) ?_
  · rintro i i' p hi hi' ⟨g1, g2⟩ ⟨g3, g4⟩
    obtain ⟨j, rfl⟩ := Nat.exists_eq_add_of_le g1
    obtain ⟨j', he⟩ := Nat.exists_eq_add_of_le g3
    rw [Nat.add_assoc, Nat.add_assoc] at he
    have := (addr_inj (by omega) (by omega) he).1
    omega
  · intro i x hi hs _ _
    have q1 := addr_lt (k := n - 1) hi (by omega : n - 1 < n)
    have q2 := addr_lt (i := i + irow) (k := icol + (n - 1)) (N := N) (M := N) (by omega) (by omega)
    refine Res.wp_mono (wp_copyRange ?_ ?_) ?_
    · rw [hB.size]; simp only [ROWMAJOR]; omega
    · rw [hs, hA.size]; simp only [ROWMAJOR]; omega
    · rintro y ⟨k1, k2⟩
      have k2 : ∀ p, y.get p = if (i + irow) * N + icol ≤ p ∧ p < (i + irow) * N + icol + n then
        B.mat.get (i * n + (p - ((i + irow) * N + icol))) else x.get p := k2
      refine ⟨k1, fun p hp => ?_, fun p hp => ?_⟩
      · rw [k2, if_pos hp]
        obtain ⟨j, rfl⟩ := Nat.exists_eq_add_of_le hp.1
        have hj : j < n := by omega
        rw [Nat.add_sub_cancel_left, Nat.add_assoc, flat_addr _ (by omega), hB.get i j hi hj]
        congr 1 <;> omega
      · rw [k2, if_neg hp]
  · rintro x ⟨h1, h2, h3⟩
    rw [Res.wp_pure]
    refine ⟨rfl, by rw [← hA.size]; exact h1, fun i j hi hj => ?_⟩
    simp only
    by_cases h : (irow ≤ i ∧ i < irow + n) ∧ (icol ≤ j ∧ j < icol + n)
    · rw [if_pos h, h2 _ ⟨i - irow, by omega, ?_⟩, flat_addr _ hj]
      rw [Nat.sub_add_cancel h.1.1]; omega
    · rw [if_neg h, h3 _ ?_, hA.get i j hi hj]
      rintro ⟨k, hk, g1, g2⟩
      obtain ⟨q, he⟩ := Nat.exists_eq_add_of_le g1
      rw [Nat.add_assoc] at he
      have := addr_inj hj (by omega : icol + q < N) he
      omega

/-! ## Introspection -/

theorem wp_rowBandwidth {N : Nat} {A : Dense R} {a : Spec.Mat R} (hA : A.Rep N a) (big : R → Bool)
    {i : Nat} (hi : i < N) : rowBandwidth A big i = .ok (Spec.rowCount big N a i) := by
  obtain ⟨c, e, h⟩ := Res.wp_exists (r := rowBandwidth A big i) (Q := fun c =>
    c = Spec.rowCount big N a i) (by
      unfold rowBandwidth
      rw [hA.dim]
      refine wp_loop' (fun k c => c = ((Finset.range k).filter (fun j => big (a i j) = true)).card)
        (by simp) ?_ (fun _ h => h)
      rintro k hk c rfl
      rw [Arr.read_ok (show ROWMAJOR i k N N < _ by rw [hA.size]; exact addr_lt hi hk), Res.bind_ok,
        Res.wp_pure, show A.mat.get (ROWMAJOR i k N N) = a i k from hA.get i k hi hk,
        Finset.range_add_one, Finset.filter_insert]
      by_cases h : big (a i k) = true
      · rw [if_pos h, if_pos h, Finset.card_insert_of_notMem (by simp)]
      · rw [if_neg h, if_neg h])
  rw [e, h]

theorem wp_bandwidth {N : Nat} {A : Dense R} {a : Spec.Mat R} (hA : A.Rep N a) (big : R → Bool) :
    bandwidth A big = .ok ((Finset.range N).sup (Spec.rowCount big N a)) := by
  obtain ⟨c, e, h⟩ := Res.wp_exists (r := bandwidth A big) (Q := fun c =>
    c = (Finset.range N).sup (Spec.rowCount big N a)) (by
      unfold bandwidth
      rw [hA.dim]
      refine wp_loop' (fun k c => c = (Finset.range k).sup (Spec.rowCount big N a))
        (by simp) ?_ (fun _ h => h)
      rintro k hk c rfl
      rw [wp_rowBandwidth hA big hk, Res.bind_ok, Res.wp_pure, Finset.range_add_one,
        Finset.sup_insert]
      split
      · next h => exact (max_eq_left (le_of_lt h)).symm
      · next h => exact (max_eq_right (not_lt.1 h)).symm)
  rw [e, h]

theorem wp_sparsityCount {N : Nat} {A : Dense R} {a : Spec.Mat R} (hA : A.Rep N a)
    (big : R → Bool) :
    sparsityCount A big = .ok (∑ i ∈ Finset.range N, Spec.rowCount big N a i) := by
  obtain ⟨c, e, h⟩ := Res.wp_exists (r := sparsityCount A big) (Q := fun c =>
    c = ∑ i ∈ Finset.range N, Spec.rowCount big N a i) (by
      unfold sparsityCount
      rw [hA.dim]
      refine wp_loop' (fun k c => c = ∑ i ∈ Finset.range k, Spec.rowCount big N a i)
        (by simp) ?_ (fun _ h => h)
      rintro i hi c rfl
      rw [Finset.sum_range_succ]
      refine wp_loop' (fun k c => c = ∑ i ∈ Finset.range i, Spec.rowCount big N a i +
        ((Finset.range k).filter (fun j => big (a i j) = true)).card)
        (by simp) ?_ (fun _ h => h)
      rintro k hk c rfl
      rw [Arr.read_ok (show ROWMAJOR i k N N < _ by rw [hA.size]; exact addr_lt hi hk), Res.bind_ok,
        Res.wp_pure, show A.mat.get (ROWMAJOR i k N N) = a i k from hA.get i k hi hk,
        Finset.range_add_one, Finset.filter_insert]
      by_cases h : big (a i k) = true
      · rw [if_pos h, if_pos h, Finset.card_insert_of_notMem (by simp), Nat.add_assoc]
      · rw [if_neg h, if_neg h])
  rw [e, h]

/-! ## Arithmetic -/

section Arith

variable [CommRing R]

omit [CommRing R] in
theorem extent {lo hi N : Nat} (h : lo ≤ hi) : lo * N + (hi - lo) * N = hi * N := by
  rw [← Nat.add_mul, Nat.add_sub_cancel' h]

omit [CommRing R] in
theorem wp_axpy [Add R] [Mul R] {x y : Arr R} {a : R} {n start : Nat} (hx : start + n ≤ x.size)
    (hy : start + n ≤ y.size) :
    (axpy n a x y start).wp E (fun r => r.size = y.size ∧
      ∀ q, r.get q = if start ≤ q ∧ q < start + n then y.get q + a * x.get q else y.get q) := by
  unfold axpy
  refine Res.wp_mono (wp_fillLoop (fun k p => p = start + k) (fun p => y.get p + a * x.get p)
    (fun i j p _ _ h1 h2 => by omega) ?_) ?_
  · intro k z hk hz h _
    rw [Arr.read_ok (by omega), Res.bind_ok, Arr.read_ok (by omega), Res.bind_ok, Arr.wp_write]
    exact ⟨by omega, filled1_write (by rw [h _ rfl])⟩
  · rintro r ⟨h1, h2, h3⟩
    refine ⟨h1, fun q => ?_⟩
    by_cases h : start ≤ q ∧ q < start + n
    · rw [if_pos h, h2 q ⟨q - start, by omega, by omega⟩]
    · rw [if_neg h, h3 q (fun ⟨k, hk, he⟩ => h (by omega))]

omit [CommRing R] in
theorem wp_axpySelf [Add R] [Mul R] {y : Arr R} {a : R} {n start : Nat} (hy : start + n ≤ y.size) :
    (axpySelf n a y start).wp E (fun r => r.size = y.size ∧
      ∀ q, r.get q = if start ≤ q ∧ q < start + n then y.get q + a * y.get q else y.get q) := by
  unfold axpySelf
  refine Res.wp_mono (wp_fillLoop (fun k p => p = start + k) (fun p => y.get p + a * y.get p)
    (fun i j p _ _ h1 h2 => by omega) ?_) ?_
  · intro k z hk hz h _
    rw [Arr.read_ok (by omega), Res.bind_ok, Res.bind_ok, Arr.wp_write]
    exact ⟨by omega, filled1_write (by rw [h _ rfl])⟩
  · rintro r ⟨h1, h2, h3⟩
    refine ⟨h1, fun q => ?_⟩
    by_cases h : start ≤ q ∧ q < start + n
    · rw [if_pos h, h2 q ⟨q - start, by omega, by omega⟩]
    · rw [if_neg h, h3 q (fun ⟨k, hk, he⟩ => h (by omega))]

omit [CommRing R] in
/-- `x` on the rows `lo ≤ i < hi`, `y` elsewhere. -/
theorem ite_rows {lo hi N i j : Nat} (h : lo ≤ hi) (hj : j < N) {x y : R} :
    (if lo * N ≤ i * N + j ∧ i * N + j < lo * N + (hi - lo) * N then x else y) =
      if lo ≤ i ∧ i < hi then x else y := by
  have := addr_between (i := i) (lo := lo) (hi := hi) hj
  rw [extent h]
  by_cases hc : lo ≤ i ∧ i < hi
  · rw [if_pos hc, if_pos (this.2 hc)]
  · rw [if_neg hc, if_neg (fun h => hc (this.1 h))]

omit [CommRing R] in
theorem wp_scaleInplace [Mul R] {N lo hi : Nat} {A : Dense R} {a : Spec.Mat R} (hA : A.Rep N a) (c : R)
    (hlo : lo ≤ hi) (hhi : hi ≤ N) :
    (scaleInplace c A lo hi).wp E (fun A' => A'.Rep N (fun i j =>
      if lo ≤ i ∧ i < hi then c * a i j else a i j)) := by
  unfold scaleInplace
  rw [Res.wp_bind, hA.dim]
  have := Nat.mul_le_mul_right N hhi
  refine Res.wp_mono (wp_scal (by rw [hA.size, extent hlo]; exact this)) ?_
  rintro x ⟨h1, h2⟩
  rw [Res.wp_pure]
  refine ⟨rfl, by rw [← hA.size]; exact h1, fun i j hi hj => ?_⟩
  simp only
  rw [h2, ite_rows hlo hj, hA.get i j hi hj]

omit [CommRing R] in
theorem wp_add [Add R] [Mul R] {N lo hi : Nat} {A B : Dense R} {a b : Spec.Mat R} (hA : A.Rep N a)
    (hB : B.Rep N b) (α β : R) (hlo : lo ≤ hi) (hhi : hi ≤ N) :
    (add A B α β lo hi).wp E (fun A' => A'.Rep N (fun i j =>
      if lo ≤ i ∧ i < hi then α * a i j + β * b i j else a i j)) := by
  unfold add
  rw [Res.wp_bind, hB.dim]
  have := Nat.mul_le_mul_right N hhi
  refine Res.wp_mono (wp_scal (by rw [hA.size, extent hlo]; exact this)) ?_
  rintro x ⟨h1, h2⟩
  rw [Res.wp_bind]
  refine Res.wp_mono (wp_axpy (by rw [hB.size, extent hlo]; exact this)
    (by rw [h1, hA.size, extent hlo]; exact this)) ?_
  rintro y ⟨h3, h4⟩
  rw [Res.wp_pure]
  refine ⟨hA.dim, by rw [← hA.size, ← h1]; exact h3, fun i j hi hj => ?_⟩
  simp only
  rw [h4, ite_rows hlo hj, h2, ite_rows hlo hj, hA.get i j hi hj, hB.get i j hi hj]
  split <;> rfl

omit [CommRing R] in
theorem wp_addSelf [Add R] [Mul R] {N lo hi : Nat} {A : Dense R} {a : Spec.Mat R} (hA : A.Rep N a) (α β : R)
    (hlo : lo ≤ hi) (hhi : hi ≤ N) :
    (addSelf A α β lo hi).wp E (fun A' => A'.Rep N (fun i j =>
      if lo ≤ i ∧ i < hi then α * a i j + β * (α * a i j) else a i j)) := by
  unfold addSelf
  rw [Res.wp_bind, hA.dim]
  have := Nat.mul_le_mul_right N hhi
  refine Res.wp_mono (wp_scal (by rw [hA.size, extent hlo]; exact this)) ?_
  rintro x ⟨h1, h2⟩
  rw [Res.wp_bind]
  refine Res.wp_mono (wp_axpySelf (by rw [h1, hA.size, extent hlo]; exact this)) ?_
  rintro y ⟨h3, h4⟩
  rw [Res.wp_pure]
  refine ⟨rfl, by rw [← hA.size, ← h1]; exact h3, fun i j hi hj => ?_⟩
  simp only
  rw [h4, ite_rows hlo hj, h2, ite_rows hlo hj, hA.get i j hi hj]
  split <;> rfl

theorem reduce_eq {lo hi : Nat} {sc : Sched} (hsc : IsSched lo hi sc) {f : Nat → Res R}
    (g : Nat → R) (hf : ∀ p, lo ≤ p → p < hi → f p = .ok (g p)) :
    reduceCells sc f = .ok (∑ p ∈ Finset.Ico lo hi, g p) := by
  unfold reduceCells
  rw [wp_sumSched hsc g 0, zero_add]
  intro t i acc h1 h2
  simp only
  rw [hf i h1 h2, Res.bind_ok]
  rfl

/-- A reduction over the cells of the rows `lo ≤ i < hi`. -/
theorem reduceRows_eq {N lo hi : Nat} {sc : Sched} (hsc : IsSched (lo * N) (hi * N) sc)
    (hlo : lo ≤ hi) {f : Nat → Res R} (g : Spec.Mat R)
    (hf : ∀ i j, i < hi → j < N → f (i * N + j) = .ok (g i j)) :
    reduceCells sc f = .ok (∑ i ∈ Finset.Ico lo hi, ∑ j ∈ Finset.range N, g i j) := by
  rw [reduce_eq hsc (flat N g)]
  · rw [sum_cells _ _ hlo]
    congr 1
    refine Finset.sum_congr rfl fun i _ => Finset.sum_congr rfl fun j hj => ?_
    rw [flat_addr _ (Finset.mem_range.1 hj)]
  · intro p h1 h2
    have hN : 0 < N := by
      rcases Nat.eq_zero_or_pos N with rfl | h
      · simp at h2
      · exact h
    have hp : p = p / N * N + p % N := by rw [Nat.mul_comm]; exact (Nat.div_add_mod p N).symm
    have hm := Nat.mod_lt p hN
    rw [hp] at h2
    have := hf (p / N) (p % N) (lt_of_addr h2) hm
    rw [← hp] at this
    exact this

omit [CommRing R] in
theorem read_cell  {N : Nat} {A : Dense R} {a : Spec.Mat R} (hA : A.Rep N a) {i j : Nat}
    (hi : i < N) (hj : j < N) : A.mat.read (i * N + j) = .ok (a i j) := by
  rw [Arr.read_ok (by rw [hA.size]; exact addr_lt hi hj), hA.get i j hi hj]

theorem addNorm_spec {N lo hi : Nat} {A B : Dense R} {a b : Spec.Mat R} (hA : A.Rep N a)
    (hB : B.Rep N b) (α β : R) (hlo : lo ≤ hi) (hhi : hi ≤ N) {sc : Sched}
    (hsc : IsSched (lo * N) (hi * N) sc) :
    (addNorm A B α β lo hi sc).wp E (fun r => r.1.Rep N (fun i j =>
      if lo ≤ i ∧ i < hi then α * a i j + β * b i j else a i j) ∧
      r.2 = ∑ i ∈ Finset.Ico lo hi, ∑ j ∈ Finset.range N, b i j * b i j) := by
  unfold addNorm
  rw [reduceRows_eq hsc hlo (fun i j => b i j * b i j) (fun i j hi hj => by
    rw [read_cell hB (by omega) hj]; rfl), Res.bind_ok, Res.wp_bind]
  refine Res.wp_mono (wp_add hA hB α β hlo hhi) ?_
  intro A' h
  exact ⟨h, rfl⟩

theorem wp_addIdentity {N lo hi : Nat} {A : Dense R} {a : Spec.Mat R} (hA : A.Rep N a) (β : R)
    {sc : Sched} (hsc : IsSched lo hi sc) (hhi : hi ≤ N) :
    (addIdentity A β sc).wp E (fun A' => A'.Rep N (fun i j =>
      if lo ≤ i ∧ i < hi then a i j + β * Spec.one i j else a i j)) := by
  unfold addIdentity
  rw [Res.wp_bind, hA.dim]
  refine Res.wp_mono (wp_fill hsc (fun i p => p = i * N + i) (fun p => A.mat.get p + β) ?_ ?_) ?_
  · intro i j p _ hi _ hj h1 h2
    exact (addr_inj (by omega) (by omega) (h1.symm.trans h2)).1
  · intro t i x _ hi hs h _
    have hlt : i * N + i < N * N := addr_lt (by omega) (by omega)
    simp only [ROWMAJOR]
    rw [Arr.read_ok (by rw [hs, hA.size]; exact hlt), Res.bind_ok, Arr.wp_write]
    exact ⟨by rw [hs, hA.size]; exact hlt, filled1_write (by rw [h _ rfl])⟩
  · rintro x ⟨h1, h2, h3⟩
    rw [Res.wp_pure]
    refine ⟨rfl, by rw [← hA.size]; exact h1, fun i j hiN hj => ?_⟩
    simp only [Spec.one]
    by_cases h : i = j
    · subst h
      by_cases hc : lo ≤ i ∧ i < hi
      · rw [if_pos hc, h2 i _ hc.1 hc.2 rfl, hA.get i i hiN hiN, if_pos rfl, mul_one]
      · rw [if_neg hc, h3, hA.get i i hiN hiN]
        intro k hk1 hk2 he
        have := addr_inj hiN (by omega : k < N) he
        exact hc (by omega)
    · rw [h3, hA.get i j hiN hj, if_neg h, mul_zero, add_zero, ite_self]
      intro k hk1 hk2 he
      have := addr_inj hj (by omega : k < N) he
      omega

omit [CommRing R] in
theorem wp_thresholdNew [Zero R] {N lo hi : Nat} {A : Dense R} {a : Spec.Mat R} (hA : A.Rep N a)
    (big : R → Bool) {sc : Sched} (hsc : IsSched (lo * N) (hi * N) sc) (hhi : hi ≤ N) :
    (thresholdNew A big sc).wp E (fun B => B.Rep N (fun i j =>
      if lo ≤ i ∧ i < hi then Spec.keep big (a i j) else 0)) := by
  have hle := Nat.mul_le_mul_right N hhi
  unfold thresholdNew
  rw [Res.wp_bind, hA.dim]
  refine Res.wp_mono (wp_cellLoop hsc (f := fun p mat => do
    let v ← A.mat.read p
    if big v then mat.write p v else pure mat) (fun p _ => Spec.keep big (A.mat.get p)) ?_) ?_
  · intro p x' h1 h2 h3 h4
    rw [Arr.read_ok (by rw [hA.size]; omega), Res.bind_ok]
    by_cases hb : big (A.mat.get p) = true
    · rw [if_pos hb, Arr.wp_write]
      refine ⟨by rw [h3]; show p < N * N; omega, filled1_write ?_⟩
      rw [Spec.keep, if_pos hb]
    · rw [if_neg hb, Res.wp_pure]
      refine ⟨rfl, ?_, fun _ _ => rfl⟩
      rintro q rfl
      rw [h4, Spec.keep, if_neg hb]; rfl
  · rintro x ⟨h1, h2⟩
    rw [Res.wp_pure]
    refine ⟨rfl, h1, fun i j hi hj => ?_⟩
    simp only
    rw [h2 i j hj, hA.get i j hi hj]; rfl

omit [CommRing R] in
theorem wp_threshold [Zero R] {N lo hi : Nat} {A : Dense R} {a : Spec.Mat R} (hA : A.Rep N a)
    (big : R → Bool) {sc : Sched} (hsc : IsSched (lo * N) (hi * N) sc) (hhi : hi ≤ N) :
    (threshold A big sc).wp E (fun A' => A'.Rep N (fun i j =>
      if lo ≤ i ∧ i < hi then Spec.keep big (a i j) else a i j)) := by
  have hle := Nat.mul_le_mul_right N hhi
  unfold threshold
  rw [Res.wp_bind]
  refine Res.wp_mono (wp_cellLoop hsc (f := fun p mat => do
    let v ← mat.read p
    if big v then pure mat else mat.write p 0) (fun p v => Spec.keep big v) ?_) ?_
  · intro p x' h1 h2 h3 h4
    rw [Arr.read_ok (by rw [h3, hA.size]; omega), Res.bind_ok]
    by_cases hb : big (x'.get p) = true
    · rw [if_pos hb, Res.wp_pure]
      refine ⟨rfl, ?_, fun _ _ => rfl⟩
      rintro q rfl
      rw [← h4, Spec.keep, if_pos hb]
    · rw [if_neg hb, Arr.wp_write]
      refine ⟨by rw [h3, hA.size]; omega, filled1_write ?_⟩
      rw [← h4, Spec.keep, if_neg hb]
  · rintro x ⟨h1, h2⟩
    rw [Res.wp_pure]
    refine ⟨hA.dim, by rw [← hA.size]; exact h1, fun i j hi hj => ?_⟩
    simp only
    rw [h2 i j hj, hA.get i j hi hj]

omit [CommRing R] in
theorem wp_elementMultiply [Mul R] {N lo hi : Nat} {A B C : Dense R} {a b c : Spec.Mat R} (hA : A.Rep N a)
    (hB : B.Rep N b) (hC : C.Rep N c) {sc : Sched} (hsc : IsSched (lo * N) (hi * N) sc)
    (hhi : hi ≤ N) :
    (elementMultiply A B C sc).wp E (fun C' => C'.Rep N (fun i j =>
      if lo ≤ i ∧ i < hi then a i j * b i j else c i j)) := by
  have hle := Nat.mul_le_mul_right N hhi
  unfold elementMultiply
  rw [Res.wp_bind]
  refine Res.wp_mono (wp_cellLoop hsc (f := fun p mat => do
    let a ← A.mat.read p
    let b ← B.mat.read p
    mat.write p (a * b)) (fun p _ => A.mat.get p * B.mat.get p) ?_) ?_
  · intro p x' h1 h2 h3 h4
    rw [Arr.read_ok (by rw [hA.size]; omega), Res.bind_ok, Arr.read_ok (by rw [hB.size]; omega),
      Res.bind_ok, Arr.wp_write]
    exact ⟨by rw [h3, hC.size]; omega, filled1_write rfl⟩
  · rintro x ⟨h1, h2⟩
    rw [Res.wp_pure]
    refine ⟨hC.dim, by rw [← hC.size]; exact h1, fun i j hi hj => ?_⟩
    simp only
    rw [h2 i j hj, hA.get i j hi hj, hB.get i j hi hj, hC.get i j hi hj]

omit [CommRing R] in
theorem wp_scaleNew [Mul R] {N lo hi : Nat} {A : Dense R} {a : Spec.Mat R} (hA : A.Rep N a) (c : R)
    (hlo : lo ≤ hi) (hhi : hi ≤ N) (junk : Nat → R) :
    (scaleNew c A lo hi junk).wp E (fun A' => A'.Rep N (fun i j =>
      if lo ≤ i ∧ i < hi then c * a i j else a i j)) := by
  unfold scaleNew
  rw [Res.wp_bind]
  exact Res.wp_mono (wp_copyNew hA junk) fun B hB => wp_scaleInplace hB c hlo hhi

omit [CommRing R] in
theorem wp_scale [Mul R] {N lo hi : Nat} {A B : Dense R} {a b : Spec.Mat R} (hA : A.Rep N a)
    (hB : B.Rep N b) (c : R) (hlo : lo ≤ hi) (hhi : hi ≤ N) :
    (scale c A B lo hi).wp E (fun A' => A'.Rep N (fun i j =>
      if lo ≤ i ∧ i < hi then c * a i j else a i j)) := by
  unfold scale
  rw [Res.wp_bind]
  exact Res.wp_mono (wp_copyInto hA hB) fun B hB => wp_scaleInplace hB c hlo hhi

theorem wp_scaleAddIdentity {N lo hi : Nat} {A : Dense R} {a : Spec.Mat R} (hA : A.Rep N a)
    (α β : R) (hlo : lo ≤ hi) (hhi : hi ≤ N) {sc : Sched} (hsc : IsSched lo hi sc) :
    (scaleAddIdentity A α β lo hi sc).wp E (fun A' => A'.Rep N (fun i j =>
      if lo ≤ i ∧ i < hi then α * a i j + β * Spec.one i j else a i j)) := by
  unfold scaleAddIdentity
  rw [Res.wp_bind]
  refine Res.wp_mono (wp_scaleInplace hA α hlo hhi) fun B hB => ?_
  refine Res.wp_mono (wp_addIdentity hB β hsc hhi) fun C hC => hC.congr fun i j _ _ => ?_
  simp only
  by_cases h : lo ≤ i ∧ i < hi
  · simp only [if_pos h]
  · simp only [if_neg h]

/-! ## Reductions -/

theorem trace_eq {N lo hi : Nat} {A : Dense R} {a : Spec.Mat R} (hA : A.Rep N a) {sc : Sched}
    (hsc : IsSched lo hi sc) (hhi : hi ≤ N) :
    trace A sc = .ok (∑ i ∈ Finset.Ico lo hi, a i i) := by
  unfold trace
  rw [hA.dim]
  exact reduce_eq hsc _ fun i _ hi => read_cell hA (by omega) (by omega)

theorem traceMult_eq {N lo hi : Nat} {A B : Dense R} {a b : Spec.Mat R} (hA : A.Rep N a)
    (hB : B.Rep N b) {sc : Sched} (hsc : IsSched (lo * N) (hi * N) sc) (hlo : lo ≤ hi)
    (hhi : hi ≤ N) :
    traceMult A B sc = .ok (∑ i ∈ Finset.Ico lo hi, ∑ j ∈ Finset.range N, a i j * b i j) := by
  unfold traceMult
  rw [if_neg (by rw [hA.dim, hB.dim]; simp)]
  refine reduceRows_eq hsc hlo _ fun i j hi hj => ?_
  rw [read_cell hA (by omega) hj, Res.bind_ok, read_cell hB (by omega) hj]
  rfl

theorem sumSquares_eq {N lo hi : Nat} {A : Dense R} {a : Spec.Mat R} (hA : A.Rep N a)
    {sc : Sched} (hsc : IsSched (lo * N) (hi * N) sc) (hlo : lo ≤ hi) (hhi : hi ≤ N) :
    sumSquares A sc = .ok (∑ i ∈ Finset.Ico lo hi, ∑ j ∈ Finset.range N, a i j * a i j) := by
  unfold sumSquares
  refine reduceRows_eq hsc hlo _ fun i j hi hj => ?_
  rw [read_cell hA (by omega) hj]
  rfl

theorem sumAB_eq {N lo hi : Nat} {A B : Dense R} {a b : Spec.Mat R} (hA : A.Rep N a)
    (hB : B.Rep N b) (α : R) (big : R → Bool) {sc : Sched} (hsc : IsSched (lo * N) (hi * N) sc)
    (hlo : lo ≤ hi) (hhi : hi ≤ N) :
    sumAB A B α big sc = .ok (∑ i ∈ Finset.Ico lo hi, ∑ j ∈ Finset.range N,
      Spec.keep big (α * a i j * b i j)) := by
  unfold sumAB
  refine reduceRows_eq hsc hlo _ fun i j hi hj => ?_
  rw [read_cell hA (by omega) hj, Res.bind_ok, read_cell hB (by omega) hj]
  rfl

theorem sumSquares2_eq {N lo hi : Nat} {A B : Dense R} {a b : Spec.Mat R} (hA : A.Rep N a)
    (hB : B.Rep N b) (α β : R) (big : R → Bool) {sc : Sched}
    (hsc : IsSched (lo * N) (hi * N) sc) (hlo : lo ≤ hi) (hhi : hi ≤ N) :
    sumSquares2 A B α β big sc = .ok (∑ i ∈ Finset.Ico lo hi, ∑ j ∈ Finset.range N,
      Spec.keep big (α * a i j + β * b i j) * Spec.keep big (α * a i j + β * b i j)) := by
  unfold sumSquares2
  refine reduceRows_eq hsc hlo _ fun i j hi hj => ?_
  rw [read_cell hA (by omega) hj, Res.bind_ok, read_cell hB (by omega) hj, Res.bind_ok]
  unfold Spec.keep
  split <;> simp_all [Res.pure_eq]

theorem fnEvents_eq (A B : Dense R) (t : R) (g : Nat → R) : ∀ (l : List Nat) (s : R),
    (∀ p ∈ l, A.mat.read p = .ok (g p + (B.mat.get p)) ∧ B.mat.read p = .ok (B.mat.get p)) →
    ∃ t', (forList (l.flatMap fun i => [FnEv.assign i, FnEv.accum i]) (t, s) (fnStep A B)) =
        Res.ok (t', s + (l.map fun p => g p * g p).sum) := by
  intro l
  induction l generalizing t with
  | nil => intro s _; exact ⟨t, by simp⟩
  | cons p l ih =>
    intro s h
    obtain ⟨h1, h2⟩ := h p (by simp)
    obtain ⟨t', e⟩ := ih (g p) (s + g p * g p) fun q hq => h q (by simp [hq])
    refine ⟨t', ?_⟩
    rw [List.flatMap_cons, List.cons_append, List.cons_append, List.nil_append, forList_cons]
    have e1 : fnStep A B (.assign p) (t, s) = .ok (g p, s) := by
      simp only [fnStep, h1, h2, Res.bind_ok, Res.pure_eq, add_sub_cancel_right]
    rw [e1, Res.bind_ok, forList_cons,
      show fnStep A B (.accum p) (g p, s) = .ok (g p, s + g p * g p) from rfl, Res.bind_ok]
    rw [List.map_cons, List.sum_cons, ← add_assoc]
    exact e

/-- Without interleaving (every `accum` follows its own `assign`) the value is the squared norm of
the difference. -/
theorem fnorm2Sq_eq {N lo hi : Nat} {A B : Dense R} {a b : Spec.Mat R} (hA : A.Rep N a)
    (hB : B.Rep N b) {l : List Nat} (hl : l.Perm ((List.range (hi * N - lo * N)).map (lo * N + ·)))
    (hlo : lo ≤ hi) (hhi : hi ≤ N) (t : R) :
    fnorm2Sq A B (l.flatMap fun i => [FnEv.assign i, FnEv.accum i]) t =
      .ok (∑ i ∈ Finset.Ico lo hi, ∑ j ∈ Finset.range N, (a i j - b i j) * (a i j - b i j)) := by
  have hle := Nat.mul_le_mul_right N hhi
  have hmem : ∀ p ∈ l, p < N * N := by
    intro p hp
    obtain ⟨k, hk, rfl⟩ := List.mem_map.1 (hl.mem_iff.1 hp)
    have := List.mem_range.1 hk
    omega
  obtain ⟨t', e⟩ := fnEvents_eq A B t (fun p => A.mat.get p - B.mat.get p) l 0 fun p hp => by
    have := hmem p hp
    rw [Arr.read_ok (by rw [hA.size]; exact this), Arr.read_ok (by rw [hB.size]; exact this)]
    exact ⟨by rw [sub_add_cancel], rfl⟩
  unfold fnorm2Sq
  rw [e, Res.bind_ok]
  simp only [zero_add, Res.pure_eq]
  congr 1
  rw [(hl.map _).sum_eq, List.map_map, list_sum_range]
  refine Eq.trans ?_ ((sum_cells (fun p => (flat N a p - flat N b p) * (flat N a p - flat N b p))
    N hlo).trans ?_)
  rw [Finset.sum_Ico_eq_sum_range]
  · refine Finset.sum_congr rfl fun k hk => ?_
    have hk := Finset.mem_range.1 hk
    have hp : lo * N + k < N * N := by omega
    have hN : 0 < N := by
      rcases Nat.eq_zero_or_pos N with rfl | h
      · simp at hp
      · exact h
    have hq : lo * N + k = (lo * N + k) / N * N + (lo * N + k) % N := by
      rw [Nat.mul_comm ((lo * N + k) / N)]; exact (Nat.div_add_mod _ N).symm
    have hm := Nat.mod_lt (lo * N + k) hN
    have hd : (lo * N + k) / N < N := Nat.div_lt_of_lt_mul hp
    simp only [Function.comp]
    generalize (lo * N + k) / N = u at *
    generalize (lo * N + k) % N = w at *
    rw [hq, flat_addr _ hm, flat_addr _ hm, hA.get _ _ hd hm, hB.get _ _ hd hm]
  · refine Finset.sum_congr rfl fun i _ => Finset.sum_congr rfl fun j hj => ?_
    have hj := Finset.mem_range.1 hj
    rw [flat_addr _ hj, flat_addr _ hj]

/-! ## Products -/

omit [CommRing R] in
theorem colMajor_of {N : Nat} {A : Dense R} {a : Spec.Mat R} (hA : A.Rep N a) :
    Props.Spec.ColMajor A.mat N N (Spec.transpose a) := by
  refine ⟨hA.size, fun i j hi hj => ?_⟩
  rw [Nat.add_comm]
  exact hA.get j i hj hi

variable [DecidableEq R]

theorem wp_multiply {N : Nat} (hN : 0 < N) {A B C : Dense R} {a b c : Spec.Mat R} (hA : A.Rep N a)
    (hB : B.Rep N b) (hC : C.Rep N c) (α β : R) :
    (multiply A B C α β).wp E (fun C' => C'.Rep N (fun i j =>
      α * Spec.mul N a b i j + β * c i j)) := by
  have hmax : max (1 : Int) (N : Int) = (N : Int) := by omega
  obtain ⟨x, e, h1, h2⟩ := Props.C31_gemm_partial (ta := 'N') (tb := 'N') (by decide) (by decide)
    N N N α β (A := B.mat) (B := A.mat) (C := C.mat) (colMajor_of hB) (colMajor_of hA)
    (colMajor_of hC)
  have d : Props.Spec.opDims 'N' N N = (N, N) := rfl
  rw [d, hmax] at e
  unfold multiply
  rw [hA.dim, e, Res.bind_ok, Res.wp_pure]
  refine ⟨hC.dim, h1, fun i j hi hj => ?_⟩
  have := h2 j i hj hi
  simp only
  rw [Nat.add_comm, this]
  simp only [Props.Spec.op, if_true, Spec.transpose, Spec.mul]
  congr 2
  exact Finset.sum_congr rfl fun k _ => mul_comm _ _

theorem wp_multiplyAdjustAB {N : Nat} (hN : 0 < N) {A B C : Dense R} {a b c : Spec.Mat R}
    (hA : A.Rep N a) (hB : B.Rep N b) (hC : C.Rep N c) :
    (multiplyAdjustAB A B C).wp E (fun C' => C'.Rep N (Spec.transpose (Spec.mul N a b))) := by
  have hmax : max (1 : Int) (N : Int) = (N : Int) := by omega
  obtain ⟨x, e, h1, h2⟩ := Props.C31_gemm_partial (ta := 'T') (tb := 'T') (by decide) (by decide)
    N N N (1 : R) 0 (A := A.mat) (B := B.mat) (C := C.mat) (colMajor_of hA) (colMajor_of hB)
    (colMajor_of hC)
  have d : Props.Spec.opDims 'T' N N = (N, N) := rfl
  rw [d, hmax] at e
  unfold multiplyAdjustAB
  rw [hA.dim, e, Res.bind_ok, Res.wp_pure]
  refine ⟨hC.dim, h1, fun i j hi hj => ?_⟩
  have := h2 j i hj hi
  simp only
  rw [Nat.add_comm, this]
  have e1 : ∀ x : Spec.Mat R, Props.Spec.op id 'T' (Spec.transpose x) = x := fun x => rfl
  rw [e1, e1]
  simp only [Spec.mul, Spec.transpose, one_mul, zero_mul, add_zero]

theorem wp_multiplyX2 {N : Nat} (hN : 0 < N) {X X2 : Dense R} {x c : Spec.Mat R} (hX : X.Rep N x)
    (hC : X2.Rep N c) {lo hi : Nat} (hhi : hi ≤ N) {sc sc' : Sched} (hsc : IsSched lo hi sc)
    (hsc' : IsSched lo hi sc') :
    (multiplyX2 X X2 sc sc').wp E (fun r => r.1.Rep N (Spec.mul N x x) ∧
      r.2.1 = ∑ i ∈ Finset.Ico lo hi, x i i ∧
      r.2.2 = ∑ i ∈ Finset.Ico lo hi, Spec.mul N x x i i) := by
  unfold multiplyX2
  rw [trace_eq hX hsc hhi, Res.bind_ok, Res.wp_bind]
  refine Res.wp_mono (wp_multiply hN hX hX hC 1 0) fun B hB => ?_
  have hB' : B.Rep N (Spec.mul N x x) := hB.congr fun i j _ _ => by simp
  rw [trace_eq hB' hsc' hhi, Res.bind_ok, Res.wp_pure]
  exact ⟨hB', rfl, rfl⟩

end Arith

/-! ## Gershgorin -/

section Gersh

variable {K : Type} [Field K] [LinearOrder K]

omit [LinearOrder K] in
theorem wp_gershRow [CommRing R] {N : Nat} {A : Dense R} {a : Spec.Mat R} (hA : A.Rep N a)
    (absv : R → K) {i : Nat} (hi : i < N) :
    gershRow A absv i = .ok (a i i, Spec.radius absv N a i) := by
  unfold gershRow
  rw [hA.dim]
  have h1 : ∀ n, n ≤ N → (loop n (0 : K) fun j r => do
      let v ← A.mat.read (ROWMAJOR i j N N)
      pure (r + absv v)) = .ok (∑ j ∈ Finset.range n, absv (a i j)) := by
    intro n
    induction n with
    | zero => intro _; rfl
    | succ n ih =>
      intro hn
      rw [loop_succ, ih (by omega), Res.bind_ok,
        show A.mat.read (ROWMAJOR i n N N) = .ok (a i n) from read_cell hA hi (by omega),
        Res.bind_ok, Finset.sum_range_succ]
      rfl
  rw [h1 N (le_refl N), Res.bind_ok,
    show A.mat.read (ROWMAJOR i i N N) = .ok (a i i) from read_cell hA hi hi, Res.bind_ok,
    Res.pure_eq]
  congr 2
  unfold Spec.radius
  rw [Finset.filter_ne', ← Finset.add_sum_erase _ _ (Finset.mem_range.2 hi), add_sub_cancel_left]

omit [Field K] in
theorem minmax_list (f g : Nat → K) (top bot : K) : ∀ (sc : Sched),
    ∃ r : K × K, (∀ {F : Nat → K × K → Res (K × K)}, (∀ i st, i ∈ sc.map Prod.snd → F i st = .ok
        (if f i < st.1 then f i else st.1, if g i > st.2 then g i else st.2)) →
      forList sc (top, bot) (fun ti st => F ti.2 st) = .ok r) ∧
      (r.1 ≤ top ∧ (∀ i ∈ sc.map Prod.snd, r.1 ≤ f i) ∧
        (r.1 = top ∨ ∃ i ∈ sc.map Prod.snd, r.1 = f i)) ∧
      (bot ≤ r.2 ∧ (∀ i ∈ sc.map Prod.snd, g i ≤ r.2) ∧
        (r.2 = bot ∨ ∃ i ∈ sc.map Prod.snd, r.2 = g i)) := by
  intro sc
  induction sc generalizing top bot with
  | nil =>
    exact ⟨(top, bot), fun _ => rfl, ⟨le_refl _, by simp, Or.inl rfl⟩, ⟨le_refl _, by simp, Or.inl rfl⟩⟩
  | cons ti sc ih =>
    obtain ⟨r, h1, ⟨a1, a2, a3⟩, ⟨b1, b2, b3⟩⟩ := ih (if f ti.2 < top then f ti.2 else top)
      (if g ti.2 > bot then g ti.2 else bot)
    refine ⟨r, ?_, ?_, ?_⟩
    · intro F hF
      rw [forList_cons, hF _ _ (by simp), Res.bind_ok]
      exact h1 fun i st hi => hF i st (by simp [hi])
    · simp only [List.map_cons, List.forall_mem_cons, List.exists_mem_cons_iff]
      by_cases h : f ti.2 < top
      · rw [if_pos h] at a1 a3
        exact ⟨le_trans a1 (le_of_lt h), ⟨a1, a2⟩, Or.inr a3⟩
      · rw [if_neg h] at a1 a3
        exact ⟨a1, ⟨le_trans a1 (not_lt.1 h), a2⟩, a3.imp_right Or.inr⟩
    · simp only [List.map_cons, List.forall_mem_cons, List.exists_mem_cons_iff]
      by_cases h : g ti.2 > bot
      · rw [if_pos h] at b1 b3
        exact ⟨le_trans (le_of_lt h) b1, ⟨b1, b2⟩, Or.inr b3⟩
      · rw [if_neg h] at b1 b3
        exact ⟨b1, ⟨le_trans (not_lt.1 h) b1, b2⟩, b3.imp_right Or.inr⟩

theorem gershgorin_spec [CommRing R] {N lo hi : Nat} {A : Dense R} {a : Spec.Mat R}
    (hA : A.Rep N a) (absv re : R → K) (top bot : K) (hhi : hi ≤ N) {sc : Sched}
    (hsc : IsSched lo hi sc) :
    ∃ e, gershgorin A absv re top bot sc = .ok e ∧
      Ell.IsMinOf top lo hi (fun i => re (a i i) - Spec.radius absv N a i) e.1 ∧
      Ell.IsMaxOf bot lo hi (fun i => re (a i i) + Spec.radius absv N a i) e.2 := by
  obtain ⟨r, h1, h2, h3⟩ := minmax_list (fun i => re (a i i) - Spec.radius absv N a i)
    (fun i => re (a i i) + Spec.radius absv N a i) top bot sc
  refine ⟨r, ?_, ?_, ?_⟩
  · unfold gershgorin
    refine h1 (F := fun i st => do
      let dr ← gershRow A absv i
      let emax := if re dr.1 + dr.2 > st.2 then re dr.1 + dr.2 else st.2
      let emin := if re dr.1 - dr.2 < st.1 then re dr.1 - dr.2 else st.1
      pure (emin, emax)) ?_
    intro i st hi
    have := (hsc.mem i).1 hi
    simp only
    rw [wp_gershRow hA absv (by omega : i < N), Res.bind_ok]
    rfl
  · exact ⟨h2.1, fun i hl hh => h2.2.1 i ((hsc.mem i).2 ⟨hl, hh⟩), h2.2.2.imp_right fun ⟨i, hi, e⟩ =>
      ⟨i, ((hsc.mem i).1 hi).1, ((hsc.mem i).1 hi).2, e⟩⟩
  · exact ⟨h3.1, fun i hl hh => h3.2.1 i ((hsc.mem i).2 ⟨hl, hh⟩), h3.2.2.imp_right fun ⟨i, hi, e⟩ =>
      ⟨i, ((hsc.mem i).1 hi).1, ((hsc.mem i).1 hi).2, e⟩⟩

omit [LinearOrder K] in
theorem wp_accumulateOffdiag [CommRing R] {N : Nat} {A : Dense R} {a : Spec.Mat R}
    (hA : A.Rep N a) (absv : R → K) (incl : Bool) :
    (accumulateOffdiag A absv incl).wp E (fun out => out.size = N ∧ ∀ i, i < N →
      out.get i = Spec.radius absv N a i + if incl then absv (a i i) else 0) := by
  unfold accumulateOffdiag
  rw [hA.dim]
  have h1 : ∀ i, i < N → ∀ n, n ≤ N → (loop n (0 : K) fun j r => do
      let v ← A.mat.read (ROWMAJOR i j N N)
      pure (if i ≠ j ∨ incl = true then r + absv v else r)) =
        .ok (∑ j ∈ Finset.range n, if i ≠ j ∨ incl = true then absv (a i j) else 0) := by
    intro i hi n
    induction n with
    | zero => intro _; rfl
    | succ n ih =>
      intro hn
      rw [loop_succ, ih (by omega), Res.bind_ok,
        show A.mat.read (ROWMAJOR i n N N) = .ok (a i n) from read_cell hA hi (by omega),
        Res.bind_ok, Finset.sum_range_succ, Res.pure_eq]
      congr 1
      split
      · rfl
      · rw [add_zero]
  refine wp_loop' (fun n (out : Arr K) => out.size = N ∧ ∀ i, i < n →
      out.get i = Spec.radius absv N a i + if incl then absv (a i i) else 0)
    ⟨rfl, fun i hi => by omega⟩ ?_ (fun _ h => h)
  rintro i hi out ⟨hs, ho⟩
  rw [h1 i hi N (le_refl N), Res.bind_ok, Arr.wp_write]
  refine ⟨by omega, hs, fun i' hi' => ?_⟩
  simp only
  by_cases he : i' = i
  · subst he
    rw [upd_same, ← Finset.add_sum_erase _ _ (Finset.mem_range.2 hi)]
    unfold Spec.radius
    rw [Finset.filter_ne', add_comm]
    congr 1
    · refine Finset.sum_congr rfl fun j hj => ?_
      rw [if_pos (Or.inl (Ne.symm (Finset.mem_erase.1 hj).1))]
    · simp
  · rw [upd_ne _ _ he]; exact ho i' (by omega)

omit [LinearOrder K] in
theorem wp_normalize {N lo hi : Nat} {A : Dense K} {a : Spec.Mat K} (hA : A.Rep N a)
    (mn mx : K) (hlo : lo ≤ hi) (hhi : hi ≤ N) {sc : Sched} (hsc : IsSched lo hi sc) :
    (normalize A mn mx lo hi sc).wp E (fun A' => A'.Rep N (fun i j =>
      if lo ≤ i ∧ i < hi then (-1 / (mx - mn)) * a i j + mx / (mx - mn) * Spec.one i j
      else a i j)) := by
  unfold normalize
  exact wp_scaleAddIdentity hA _ _ hlo hhi hsc

end Gersh

end Dense

end Bml
