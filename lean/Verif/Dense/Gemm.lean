import Verif.Basic

/-!
# Model of the internal matrix product

`src/internal-blas/bml_gemm.c`.  The arithmetic is an arbitrary type with `0`, `1`, `+` and `*`, no
laws assumed, so that statements about which cells are read also hold with NaNs.
-/

namespace Bml

namespace Gemm

variable {R : Type} [Zero R] [One R] [Add R] [Mul R] [DecidableEq R]

/-- The argument checks, lines 31-93: the value of `info`. -/
def info (transa transb : Char) (m n k lda ldb ldc : Int) : Nat :=
  let rowsA := if transa = 'N' then m else k
  let rowsB := if transb = 'N' then k else n
  if transa ≠ 'N' ∧ transa ≠ 'C' ∧ transa ≠ 'T' then 1
  else if transb ≠ 'N' ∧ transb ≠ 'C' ∧ transb ≠ 'T' then 2
  else if m < 0 then 3
  else if n < 0 then 4
  else if k < 0 then 5
  else if lda < max 1 rowsA then 8
  else if ldb < max 1 rowsB then 10
  else if ldc < max 1 m then 13
  else 0

/-- Lines 103-125: `alpha == 0`. -/
def scaleC (m n : Nat) (beta : R) (c : Arr R) : Res (Arr R) :=
  if beta = 0 then
    loop n c fun j c => loop m c fun i c => c.write (COLMAJOR i j m n) 0
  else
    loop n c fun j c => loop m c fun i c => do
      let x ← c.read (COLMAJOR i j m n)
      c.write (COLMAJOR i j m n) (beta * x)

/-- Lines 136-149 and 190-203: column `j` of `C` times `beta`. -/
def scaleCol (m n : Nat) (beta : R) (j : Nat) (c : Arr R) : Res (Arr R) :=
  if beta = 0 then
    loop m c fun i c => c.write (COLMAJOR i j m n) 0
  else if beta ≠ 1 then
    loop m c fun i c => do
      let x ← c.read (COLMAJOR i j m n)
      c.write (COLMAJOR i j m n) (x * beta)
  else pure c

/-- Lines 151-159 and 205-213: column `j`; `bi l` is the index of the element of `B`. -/
def axpyCol (m n k : Nat) (alpha : R) (a b : Arr R) (bi : Nat → Nat) (j : Nat) (c : Arr R) :
    Res (Arr R) :=
  loop k c fun l c => do
    let x ← b.read (bi l)
    let temp := alpha * x
    loop m c fun i c => do
      let y ← a.read (COLMAJOR i l m k)
      let z ← c.read (COLMAJOR i j m n)
      c.write (COLMAJOR i j m n) (z + temp * y)

/-- Lines 168-185 and 222-240: element `(i, j)`, `transa` not `'N'`. -/
def dotCell (m n k : Nat) (alpha beta : R) (a b : Arr R) (bi : Nat → Nat) (i j : Nat) (c : Arr R) :
    Res (Arr R) := do
  let temp ← loop k (0 : R) fun l t => do
    let x ← a.read (COLMAJOR l i k m)
    let y ← b.read (bi l)
    pure (t + x * y)
  if beta = 0 then c.write (COLMAJOR i j m n) (alpha * temp)
  else do
    let z ← c.read (COLMAJOR i j m n)
    c.write (COLMAJOR i j m n) (alpha * temp + beta * z)

/-- `bml_gemm_internal`, lines 8-243.  `A`, `B` and `C` do not overlap.  Dimensions are C `int`s;
the products of dimensions used as indices are not checked for overflow. -/
def gemm (transa transb : Char) (m n k : Int) (alpha : R) (a : Arr R) (lda : Int) (b : Arr R)
    (ldb : Int) (beta : R) (c : Arr R) (ldc : Int) : Res (Arr R) :=
  if info transa transb m n k lda ldb ldc ≠ 0 then .error
  else if (m = 0 ∨ n = 0) ∨ ((alpha = 0 ∨ k = 0) ∧ beta = 1) then pure c
  else if alpha = 0 then scaleC m.toNat n.toNat beta c
  else if transb = 'N' then
    if transa = 'N' then
      loop n.toNat c fun j c => do
        let c ← scaleCol m.toNat n.toNat beta j c
        axpyCol m.toNat n.toNat k.toNat alpha a b (fun l => COLMAJOR l j k.toNat n.toNat) j c
    else
      loop n.toNat c fun j c => loop m.toNat c fun i c =>
        dotCell m.toNat n.toNat k.toNat alpha beta a b (fun l => COLMAJOR l j k.toNat n.toNat) i j c
  else
    if transa = 'N' then
      loop n.toNat c fun j c => do
        let c ← scaleCol m.toNat n.toNat beta j c
        axpyCol m.toNat n.toNat k.toNat alpha a b (fun l => COLMAJOR j l n.toNat k.toNat) j c
    else
      loop n.toNat c fun j c => loop m.toNat c fun i c =>
        dotCell m.toNat n.toNat k.toNat alpha beta a b (fun l => COLMAJOR j l n.toNat k.toNat) i j c

/-! ## Proofs -/

variable {E : Prop}

/-- `s + f 0 + … + f (n-1)`, in this order. -/
def accum (s : R) (f : Nat → R) : Nat → R
  | 0 => s
  | n + 1 => accum s f n + f n

/-- `c'` is `c` with the cells `(i, j)`, `i < m`, of column `j` mapped by `g`. -/
def ColMap (m j : Nat) (g : Nat → R → R) (c c' : Arr R) : Prop :=
  c'.size = c.size ∧ (∀ i, i < m → c'.get (i + j * m) = g i (c.get (i + j * m))) ∧
    ∀ x, (∀ i, i < m → x ≠ i + j * m) → c'.get x = c.get x

theorem col_inj {i i' j j' m : Nat} (hi : i < m) (hi' : i' < m) (h : i + j * m = i' + j' * m) :
    i = i' ∧ j = j' := by
  have := addr_inj (i := j) (i' := j') hi hi' (by omega)
  exact ⟨this.2, this.1⟩

omit [Zero R] [One R] [Add R] [Mul R] [DecidableEq R] in
theorem wp_colLoop {m j : Nat} {g : Nat → R → R} {c0 : Arr R} {f : Nat → Arr R → Res (Arr R)}
    (hf : ∀ i, i < m → ∀ c : Arr R, c.size = c0.size →
      (f i c).wp E (fun c' => c' = ⟨c.size, upd c.get (i + j * m) (g i (c.get (i + j * m)))⟩)) :
    (loop m c0 f).wp E (ColMap m j g c0) := by
  refine wp_loop' (fun n (c : Arr R) => c.size = c0.size ∧
    (∀ i, i < n → c.get (i + j * m) = g i (c0.get (i + j * m))) ∧
    ∀ x, (∀ i, i < n → x ≠ i + j * m) → c.get x = c0.get x)
    ⟨rfl, fun i hi => by omega, fun x _ => rfl⟩ ?_ (fun _ h => h)
  rintro n hn c ⟨h1, h2, h3⟩
  refine Res.wp_mono (hf n hn c h1) ?_
  rintro c' rfl
  refine ⟨h1, ?_, ?_⟩
  · intro i hi
    simp only
    by_cases hin : i = n
    · subst hin
      rw [upd_same, h3 _ (fun i' hi' he => by omega)]
    · rw [upd_ne _ _ (by omega)]
      exact h2 i (by omega)
  · intro x hx
    simp only
    rw [upd_ne _ _ (hx n (by omega))]
    exact h3 x (fun i hi => hx i (by omega))

omit [Zero R] [One R] [Add R] [Mul R] [DecidableEq R] in
theorem ColMap.trans {m j : Nat} {g g' : Nat → R → R} {c c' c'' : Arr R} (h : ColMap m j g c c')
    (h' : ColMap m j g' c' c'') : ColMap m j (fun i x => g' i (g i x)) c c'' := by
  refine ⟨by rw [h'.1, h.1], fun i hi => ?_, fun x hx => ?_⟩
  · rw [h'.2.1 i hi, h.2.1 i hi]
  · rw [h'.2.2 x hx, h.2.2 x hx]

omit [Zero R] [One R] [Add R] [Mul R] [DecidableEq R] in
/-- All columns, one after the other. -/
theorem wp_cols {m n : Nat} {g : Nat → Nat → R → R} {c0 : Arr R} {f : Nat → Arr R → Res (Arr R)}
    (hf : ∀ j, j < n → ∀ c : Arr R, c.size = c0.size →
      (f j c).wp E (ColMap m j (fun i => g i j) c)) :
    (loop n c0 f).wp E (fun c => c.size = c0.size ∧ (∀ i j, i < m → j < n →
      c.get (i + j * m) = g i j (c0.get (i + j * m))) ∧
      ∀ x, m * n ≤ x → c.get x = c0.get x) := by
  refine wp_loop' (fun k (c : Arr R) => c.size = c0.size ∧ (∀ i j, i < m → j < n →
      c.get (i + j * m) = if j < k then g i j (c0.get (i + j * m)) else c0.get (i + j * m)) ∧
      ∀ x, m * n ≤ x → c.get x = c0.get x)
    ⟨rfl, fun i j _ _ => by simp, fun _ _ => rfl⟩ ?_ ?_
  · rintro k hk c ⟨h1, h2, h3⟩
    refine Res.wp_mono (hf k hk c h1) ?_
    rintro c' ⟨g1, g2, g3⟩
    refine ⟨by rw [g1, h1], ?_, ?_⟩
    · intro i j hi hj
      by_cases hjk : j = k
      · subst hjk
        rw [g2 i hi, h2 i j hi hj, if_neg (lt_irrefl j), if_pos (by omega)]
      · rw [g3 _ (fun i' hi' he => hjk (col_inj hi hi' he).2), h2 i j hi hj]
        have : j < k + 1 ↔ j < k := by omega
        simp only [this]
    · intro x hx
      rw [g3 x (fun i hi he => ?_), h3 x hx]
      have := addr_lt hk hi
      rw [Nat.mul_comm n m] at this
      omega
  · rintro c ⟨h1, h2, h3⟩
    exact ⟨h1, fun i j hi hj => by rw [h2 i j hi hj, if_pos hj], h3⟩

/-- The value that a cell has before the products are added. -/
def initCell (beta z : R) : R := if beta = 0 then 0 else if beta ≠ 1 then z * beta else z

theorem wp_scaleCol {m n j : Nat} (beta : R) {c : Arr R} (hc : c.size = m * n) (hj : j < n) :
    (scaleCol m n beta j c).wp E (ColMap m j (fun _ z => initCell beta z) c) := by
  have hadr : ∀ i, i < m → i + j * m < m * n := by
    intro i hi
    have := addr_lt hj hi
    rw [Nat.mul_comm n m] at this; omega
  unfold scaleCol initCell
  by_cases h0 : beta = 0
  · rw [if_pos h0]
    simp only [if_pos h0]
    refine wp_colLoop fun i hi c' hc' => ?_
    rw [Arr.wp_write]
    exact ⟨by rw [hc', hc]; exact hadr i hi, rfl⟩
  · rw [if_neg h0]
    simp only [if_neg h0]
    by_cases h1 : beta ≠ 1
    · rw [if_pos h1]
      simp only [if_pos h1]
      refine wp_colLoop fun i hi c' hc' => ?_
      rw [Arr.read_ok (by rw [hc', hc]; exact hadr i hi), Res.bind_ok, Arr.wp_write]
      exact ⟨by rw [hc', hc]; exact hadr i hi, rfl⟩
    · rw [if_neg h1, Res.wp_pure]
      simp only [if_neg h1]
      exact ⟨rfl, fun _ _ => rfl, fun _ _ => rfl⟩

omit [Zero R] [One R] [DecidableEq R] in
theorem wp_axpyCol {m n k j : Nat} (alpha : R) {a b : Arr R} {bi : Nat → Nat} {c0 : Arr R}
    (ha : a.size = m * k) (hb : ∀ l, l < k → bi l < b.size) (hc : c0.size = m * n) (hj : j < n) :
    (axpyCol m n k alpha a b bi j c0).wp E (ColMap m j (fun i z =>
      accum z (fun l => alpha * b.get (bi l) * a.get (i + l * m)) k) c0) := by
  have hadr : ∀ i, i < m → i + j * m < m * n := by
    intro i hi
    have := addr_lt hj hi
    rw [Nat.mul_comm n m] at this; omega
  unfold axpyCol
  refine wp_loop' (fun q c => ColMap m j (fun i z =>
      accum z (fun l => alpha * b.get (bi l) * a.get (i + l * m)) q) c0 c)
    ⟨rfl, fun _ _ => rfl, fun _ _ => rfl⟩ ?_ (fun _ h => h)
  intro q hq c h
  rw [Arr.read_ok (hb q hq), Res.bind_ok]
  simp only
  refine Res.wp_mono (wp_colLoop (j := j) (m := m) (c0 := c)
    (g := fun i z => z + alpha * b.get (bi q) * a.get (i + q * m)) fun i hi c' hc' => ?_) ?_
  · have h1 : i + q * m < m * k := by
      have := addr_lt hq hi
      rw [Nat.mul_comm k m] at this; omega
    rw [Arr.read_ok (show COLMAJOR i q m k < a.size by rw [ha]; exact h1), Res.bind_ok,
      Arr.read_ok (show COLMAJOR i j m n < c'.size by rw [hc', h.1, hc]; exact hadr i hi),
      Res.bind_ok, Arr.wp_write]
    exact ⟨by rw [hc', h.1, hc]; exact hadr i hi, rfl⟩
  · intro c' h'
    exact h.trans h'

theorem wp_dotCell {m n k i j : Nat} (alpha beta : R) {a b : Arr R} {bi : Nat → Nat} {c : Arr R}
    (ha : a.size = k * m) (hb : ∀ l, l < k → bi l < b.size) (hc : c.size = m * n) (hi : i < m)
    (hj : j < n) :
    (dotCell m n k alpha beta a b bi i j c).wp E (fun c' => c' = ⟨c.size, upd c.get (i + j * m)
      (if beta = 0 then alpha * accum 0 (fun l => a.get (l + i * k) * b.get (bi l)) k
       else alpha * accum 0 (fun l => a.get (l + i * k) * b.get (bi l)) k +
         beta * c.get (i + j * m))⟩) := by
  have hadr : i + j * m < m * n := by
    have := addr_lt hj hi
    rw [Nat.mul_comm n m] at this; omega
  unfold dotCell
  rw [Res.wp_bind]
  refine wp_loop' (fun q t => t = accum 0 (fun l => a.get (l + i * k) * b.get (bi l)) q) rfl ?_ ?_
  · rintro q hq t rfl
    have h1 : q + i * k < k * m := by
      have := addr_lt hi hq
      rw [Nat.mul_comm m k] at this; omega
    rw [Arr.read_ok (show COLMAJOR q i k m < a.size by rw [ha]; exact h1), Res.bind_ok,
      Arr.read_ok (hb q hq), Res.bind_ok, Res.wp_pure]
    rfl
  · rintro t rfl
    by_cases h0 : beta = 0
    · rw [if_pos h0, if_pos h0, Arr.wp_write]
      exact ⟨by rw [hc]; exact hadr, rfl⟩
    · rw [if_neg h0, if_neg h0,
        Arr.read_ok (show COLMAJOR i j m n < c.size by rw [hc]; exact hadr), Res.bind_ok,
        Arr.wp_write]
      exact ⟨by rw [hc]; exact hadr, rfl⟩

/-- Element `(i, l)` of `op(A)`, `op(A)` being `m × k`. -/
def opA (t : Char) (a : Arr R) (m k i l : Nat) : R :=
  if t = 'N' then a.get (i + l * m) else a.get (l + i * k)

/-- Element `(l, j)` of `op(B)`, `op(B)` being `k × n`. -/
def opB (t : Char) (b : Arr R) (k n l j : Nat) : R :=
  if t = 'N' then b.get (l + j * k) else b.get (j + l * n)

/-- What `gemm` puts into a cell that held `z`. -/
def cell (transa : Char) (alpha beta : R) (k : Nat) (x y : Nat → R) (z : R) : R :=
  if alpha = 0 then (if beta = 1 then z else if beta = 0 then 0 else beta * z)
  else if k = 0 ∧ beta = 1 then z
  else if transa = 'N' then accum (initCell beta z) (fun l => alpha * y l * x l) k
  else if beta = 0 then alpha * accum 0 (fun l => x l * y l) k
  else alpha * accum 0 (fun l => x l * y l) k + beta * z

theorem wp_gemm {ta tb : Char} {m n k : Nat} {lda ldb ldc : Int} (alpha beta : R)
    {a b c : Arr R} (hinfo : info ta tb m n k lda ldb ldc = 0)
    (ha : a.size = m * k) (hb : b.size = k * n) (hc : c.size = m * n) :
    (gemm ta tb m n k alpha a lda b ldb beta c ldc).wp E (fun c' => c'.size = m * n ∧
      ∀ i j, i < m → j < n → c'.get (i + j * m) =
        cell ta alpha beta k (fun l => opA ta a m k i l) (fun l => opB tb b k n l j)
          (c.get (i + j * m))) := by
  have hadr : ∀ i j, i < m → j < n → i + j * m < m * n := by
    intro i j hi hj
    have := addr_lt hj hi
    rw [Nat.mul_comm n m] at this; omega
  have hbN : ∀ j, j < n → ∀ l, l < k → COLMAJOR l j k n < b.size := by
    intro j hj l hl
    rw [hb]
    have := addr_lt hj hl
    rw [Nat.mul_comm n k] at this
    show l + j * k < _
    omega
  have hbT : ∀ j, j < n → ∀ l, l < k → COLMAJOR j l n k < b.size := by
    intro j hj l hl
    rw [hb]
    have := addr_lt hl hj
    show j + l * n < _
    omega
  unfold gemm
  rw [if_neg (by simp [hinfo])]
  by_cases hq : ((m : Int) = 0 ∨ (n : Int) = 0) ∨ ((alpha = 0 ∨ (k : Int) = 0) ∧ beta = 1)
  · rw [if_pos hq, Res.wp_pure]
    refine ⟨hc, fun i j hi hj => ?_⟩
    unfold cell
    rcases hq with (h | h) | ⟨h, h1⟩
    · omega
    · omega
    · by_cases ha0 : alpha = 0
      · rw [if_pos ha0, if_pos h1]
      · rw [if_neg ha0, if_pos ⟨by have := h.resolve_left ha0; omega, h1⟩]
  rw [if_neg hq]
  simp only [not_or, not_and] at hq
  obtain ⟨⟨hm0, hn0⟩, hab⟩ := hq
  simp only [Int.toNat_natCast]
  by_cases ha0 : alpha = 0
  · rw [if_pos ha0]
    have hb1 : ¬ beta = 1 := hab (Or.inl ha0)
    unfold scaleC cell
    simp only [if_pos ha0, if_neg hb1]
    by_cases h0 : beta = 0
    · rw [if_pos h0]
      refine Res.wp_mono (wp_cols (m := m) (g := fun _ _ _ => (0 : R)) fun j hj c' hc' => ?_) ?_
      · refine wp_colLoop fun i hi c2 hc2 => ?_
        rw [Arr.wp_write]
        exact ⟨by rw [hc2, hc', hc]; exact hadr i j hi hj, rfl⟩
      · rintro c' ⟨h1, h2, _⟩
        exact ⟨by rw [h1, hc], fun i j hi hj => by rw [h2 i j hi hj, if_pos h0]⟩
    · rw [if_neg h0]
      refine Res.wp_mono (wp_cols (m := m) (g := fun _ _ z => beta * z) fun j hj c' hc' => ?_) ?_
      · refine wp_colLoop fun i hi c2 hc2 => ?_
        rw [Arr.read_ok (show COLMAJOR i j m n < c2.size by rw [hc2, hc', hc]; exact hadr i j hi hj),
          Res.bind_ok, Arr.wp_write]
        exact ⟨by rw [hc2, hc', hc]; exact hadr i j hi hj, rfl⟩
      · rintro c' ⟨h1, h2, _⟩
        exact ⟨by rw [h1, hc], fun i j hi hj => by rw [h2 i j hi hj, if_neg h0]⟩
  rw [if_neg ha0]
  have hk1 : ¬ (k = 0 ∧ beta = 1) := fun h => hab (Or.inr (by exact_mod_cast h.1)) h.2
  have axpy : ∀ (bi : Nat → Nat → Nat), (∀ j, j < n → ∀ l, l < k → bi j l < b.size) →
      (∀ j l, b.get (bi j l) = opB tb b k n l j) → ta = 'N' →
      (loop n c fun j c => do
        let c ← scaleCol m n beta j c
        axpyCol m n k alpha a b (bi j) j c).wp E (fun c' => c'.size = m * n ∧
          ∀ i j, i < m → j < n → c'.get (i + j * m) =
            cell ta alpha beta k (fun l => opA ta a m k i l) (fun l => opB tb b k n l j)
              (c.get (i + j * m))) := by
    intro bi hbi hop hta
    refine Res.wp_mono (wp_cols (m := m) (g := fun i j z => accum (initCell beta z)
      (fun l => alpha * b.get (bi j l) * a.get (i + l * m)) k) fun j hj c' hc' => ?_) ?_
    · rw [Res.wp_bind]
      refine Res.wp_mono (wp_scaleCol beta (by rw [hc', hc]) hj) ?_
      intro c2 h2
      refine Res.wp_mono (wp_axpyCol alpha ha (hbi j hj) (by rw [h2.1, hc', hc]) hj) ?_
      intro c3 h3
      exact h2.trans h3
    · rintro c' ⟨h1, h2, _⟩
      refine ⟨by rw [h1, hc], fun i j hi hj => ?_⟩
      rw [h2 i j hi hj]
      unfold cell
      rw [if_neg ha0, if_neg hk1, if_pos hta]
      congr 1
      funext l
      simp only [hop, opA, if_pos hta]
  have dot : ∀ (bi : Nat → Nat → Nat), (∀ j, j < n → ∀ l, l < k → bi j l < b.size) →
      (∀ j l, b.get (bi j l) = opB tb b k n l j) → ¬ ta = 'N' →
      (loop n c fun j c => loop m c fun i c =>
        dotCell m n k alpha beta a b (bi j) i j c).wp E (fun c' => c'.size = m * n ∧
          ∀ i j, i < m → j < n → c'.get (i + j * m) =
            cell ta alpha beta k (fun l => opA ta a m k i l) (fun l => opB tb b k n l j)
              (c.get (i + j * m))) := by
    intro bi hbi hop hta
    refine Res.wp_mono (wp_cols (m := m) (g := fun i j z =>
      if beta = 0 then alpha * accum 0 (fun l => a.get (l + i * k) * b.get (bi j l)) k
       else alpha * accum 0 (fun l => a.get (l + i * k) * b.get (bi j l)) k +
         beta * z) fun j hj c' hc' => ?_) ?_
    · refine wp_colLoop fun i hi c2 hc2 => ?_
      exact wp_dotCell alpha beta (by rw [ha, Nat.mul_comm]) (hbi j hj) (by rw [hc2, hc', hc]) hi hj
    · rintro c' ⟨h1, h2, _⟩
      refine ⟨by rw [h1, hc], fun i j hi hj => ?_⟩
      rw [h2 i j hi hj]
      unfold cell
      rw [if_neg ha0, if_neg hk1, if_neg hta]
      have : (fun l => a.get (l + i * k) * b.get (bi j l)) =
          fun l => opA ta a m k i l * opB tb b k n l j := by
        funext l
        rw [hop, opA, if_neg hta]
      rw [this]
  by_cases htb : tb = 'N'
  · rw [if_pos htb]
    have hop : ∀ j l, b.get (COLMAJOR l j k n) = opB tb b k n l j := by
      intro j l; rw [opB, if_pos htb]; rfl
    by_cases hta : ta = 'N'
    · rw [if_pos hta]
      exact axpy (fun j l => COLMAJOR l j k n) hbN hop hta
    · rw [if_neg hta]
      exact dot (fun j l => COLMAJOR l j k n) hbN hop hta
  · rw [if_neg htb]
    have hop : ∀ j l, b.get (COLMAJOR j l n k) = opB tb b k n l j := by
      intro j l; rw [opB, if_neg htb]; rfl
    by_cases hta : ta = 'N'
    · rw [if_pos hta]
      exact axpy (fun j l => COLMAJOR j l n k) hbT hop hta
    · rw [if_neg hta]
      exact dot (fun j l => COLMAJOR j l n k) hbT hop hta

end Gemm

end Bml
