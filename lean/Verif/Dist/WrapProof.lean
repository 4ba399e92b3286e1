import Verif.Dist.Wrappers
import Verif.Props.EllNormalize

/-!
# Distributed functions, for any local format
-/

namespace Bml.Dist

open Bml.Props

variable {τ R : Type} [CommRing R]

/-- The local functions are right for `n × n` matrices with the width parameter `m`.  `Rep A a` says
that `A` holds `a`; `kp` is what the threshold leaves of a number, `thr` the same for
`bml_threshold`; `RepC` may ask more of a matrix that is added to. -/
structure Local.Exact (L : Local τ R) (n m : Nat) (kp thr : R → R) (Rep RepC : τ → Spec.Mat R → Prop) :
    Prop where
  congr : ∀ {A a b}, Rep A a → Spec.Eq n a b → Rep A b
  copyNew : ∀ r {A a}, Rep A a → ∃ B, L.copyNew r m A = .ok B ∧ Rep B a
  deliver : ∀ {A B a b}, Rep A a → Rep B b → ∃ B', L.deliver B A = .ok B' ∧ Rep B' a
  add : ∀ r {A B a b}, RepC A a → Rep B b → ∀ α β, ∃ A', L.add r A B α β = .ok A' ∧
    Rep A' (fun i j => kp (α * a i j + β * b i j))
  addIdentity : ∀ r {A a}, Rep A a → ∀ β, ∃ A', L.addIdentity r A β = .ok A' ∧
    Rep A' (fun i j => kp (a i j + β * Spec.one i j))
  scaleAddIdentity : ∀ r {A a}, Rep A a → ∀ α β, ∃ A', L.scaleAddIdentity r A α β = .ok A' ∧
    Rep A' (fun i j => kp (α * a i j + β * Spec.one i j))
  scaleInplace : ∀ r {A a}, Rep A a → ∀ c, ∃ A', L.scaleInplace r c A = .ok A' ∧
    Rep A' (fun i j => c * a i j)
  threshold : ∀ r {A a}, Rep A a → ∃ A', L.threshold r A = .ok A' ∧ Rep A' (fun i j => thr (a i j))
  setRow : ∀ r {A a}, Rep A a → ∀ {i}, i < n → ∀ {row : Arr R}, n ≤ row.size →
    ∃ A', L.setRow r A i row = .ok A' ∧ Rep A' (fun i' j => if i' = i then kp (row.get j) else a i' j)
  getRow : ∀ r {A a}, Rep A a → ∀ {i}, i < n → ∃ row, L.getRow r A i = .ok row ∧ row.size = n ∧
    ∀ j, j < n → row.get j = a i j
  setDiagonal : ∀ r {A a}, Rep A a → ∀ {d : Arr R}, n ≤ d.size → ∃ A', L.setDiagonal r A d = .ok A' ∧
    Rep A' (fun i j => if i = j then kp (d.get i) else a i j)
  getDiagonal : ∀ r {A a}, Rep A a → ∃ d, L.getDiagonal r A = .ok d ∧ d.size = n ∧
    ∀ i, i < n → d.get i = a i i
  trace : ∀ r {A a}, Rep A a → L.trace r A = .ok (Spec.tr n a)
  sumSquares : ∀ r {A a}, Rep A a → L.sumSquares r A = .ok (Spec.total n n fun i j => a i j * a i j)
  transpose : ∀ r {A a}, Rep A a → ∃ A', L.transpose r A = .ok A' ∧ Rep A' (Spec.transpose a)
  zero : ∀ r, ∃ A, L.zero r n m = .ok A ∧ Rep A Spec.zero
  identity : ∀ r, ∃ A, L.identity r n m = .ok A ∧ Rep A Spec.one
  importDense : ∀ r o {buf : Arr R}, n * n ≤ buf.size → ∃ A, L.importDense r o n m buf = .ok A ∧
    Rep A (fun i j => kp (buf.get (o.addr i j n)))
  exportDense : ∀ r {A a}, Rep A a → ∀ o, ∃ out, L.exportDense r A o = .ok out ∧ out.size = n * n ∧
    ∀ i j, i < n → j < n → out.get (o.addr i j n) = a i j

variable {L : Local τ R} {p n m : Nat} {kp thr : R → R} {Rep RepC : τ → Spec.Mat R → Prop}
  {D E : Nat → τ} {a b : Spec.Mat R}

/-- One of the ranks is on the diagonal of the grid. -/
theorem pos_of {r : Nat} (h : r < p * p) : 0 < p := Nat.pos_of_ne_zero (by rintro rfl; omega)

theorem ranks_of {P : Nat → Prop} (h : ∀ i j, i < p → j < p → P (rankOf p i j)) : ∀ r, r < p * p → P r := by
  intro r hr
  have := h _ _ (prow_lt hr) (pcol_lt hr)
  rwa [rankOf_coords] at this

/-! ## Local calls -/

theorem calls_add (hL : L.Exact n m kp thr Rep RepC) (hp : 0 < p) (hA : Holds RepC p n D a)
    (hB : Holds Rep p n E b) (α β : R) :
    ∃ D', Calls p (fun r => add L r (D r) (E r) α β) D' ∧
      Holds Rep p n D' (fun i j => kp (α * a i j + β * b i j)) :=
  calls_of hp fun i j hi hj => hL.add _ (hA i j hi hj) (hB i j hi hj) α β

/-- Positions on the diagonal of some tile. -/
def tileOne (n : Nat) : Spec.Mat R := fun i j => if i % n = j % n then 1 else 0

theorem tile_tileOne (i j : Nat) : Spec.Eq n (Spec.one : Spec.Mat R) (tile n i j (tileOne n)) := by
  intro r s hr hs
  unfold tile tileOne Spec.one
  rw [Nat.mul_add_mod', Nat.mul_add_mod', Nat.mod_eq_of_lt hr, Nat.mod_eq_of_lt hs]

theorem calls_addIdentity (hL : L.Exact n m kp thr Rep RepC) (hp : 0 < p) (hA : Holds Rep p n D a)
    (β : R) : ∃ D', Calls p (fun r => addIdentity L r (D r) β) D' ∧
      Holds Rep p n D' (fun i j => kp (a i j + β * tileOne n i j)) := by
  refine calls_of hp fun i j hi hj => ?_
  obtain ⟨A', e, h⟩ := hL.addIdentity (rankOf p i j) (hA i j hi hj) β
  refine ⟨A', e, hL.congr h fun r s hr hs => ?_⟩
  show _ = kp (tile n i j a r s + β * tile n i j (tileOne n) r s)
  rw [tile_tileOne i j r s hr hs]

theorem calls_scaleAddIdentity (hL : L.Exact n m kp thr Rep RepC) (hp : 0 < p) (hA : Holds Rep p n D a)
    (α β : R) : ∃ D', Calls p (fun r => scaleAddIdentity L r (D r) α β) D' ∧
      Holds Rep p n D' (fun i j => kp (α * a i j + β * tileOne n i j)) := by
  refine calls_of hp fun i j hi hj => ?_
  obtain ⟨A', e, h⟩ := hL.scaleAddIdentity (rankOf p i j) (hA i j hi hj) α β
  refine ⟨A', e, hL.congr h fun r s hr hs => ?_⟩
  show _ = kp (α * tile n i j a r s + β * tile n i j (tileOne n) r s)
  rw [tile_tileOne i j r s hr hs]

theorem calls_scaleInplace (hL : L.Exact n m kp thr Rep RepC) (hp : 0 < p) (hA : Holds Rep p n D a)
    (c : R) : ∃ D', Calls p (fun r => scaleInplace L r c (D r)) D' ∧
      Holds Rep p n D' (fun i j => c * a i j) :=
  calls_of hp fun i j hi hj => hL.scaleInplace _ (hA i j hi hj) c

theorem calls_copyNew (hL : L.Exact n m kp thr Rep RepC) (hp : 0 < p) (hA : Holds Rep p n D a)
    {M : Nat} (hM : M / p = m) : ∃ D', Calls p (fun r => copyNew L p M r (D r)) D' ∧ Holds Rep p n D' a :=
  calls_of hp fun i j hi hj => by
    unfold copyNew
    rw [hM]
    exact hL.copyNew _ (hA i j hi hj)

theorem calls_thresholdNew (hL : L.Exact n m kp thr Rep RepC) (hp : 0 < p) (hA : Holds Rep p n D a)
    {M : Nat} (hM : M / p = m) : ∃ D', Calls p (fun r => thresholdNew L p M r (D r)) D' ∧
      Holds Rep p n D' (fun i j => thr (a i j)) :=
  calls_of hp fun i j hi hj => by
    obtain ⟨B, e, hB⟩ := hL.copyNew (rankOf p i j) (hA i j hi hj)
    obtain ⟨B', e', hB'⟩ := hL.threshold (rankOf p i j) hB
    refine ⟨B', ?_, hB'⟩
    unfold thresholdNew
    rw [hM, e, Res.bind_ok, e']

theorem calls_setDiagonal (hL : L.Exact n m kp thr Rep RepC) (hp : 0 < p) (hA : Holds Rep p n D a)
    {d : Arr R} (hd : p * n ≤ d.size) :
    ∃ D', Calls p (fun r => setDiagonal L p (p * n) r (D r) d) D' ∧
      Holds Rep p n D' (fun i j => if i = j then kp (d.get i) else a i j) := by
  refine calls_of hp fun i j hi hj => ?_
  unfold setDiagonal
  rw [prow_rankOf hj, pcol_rankOf hj]
  have ho : i * (p * n) / p = i * n := by
    rw [show i * (p * n) = i * n * p by ring, Nat.mul_div_cancel _ hp]
  by_cases hij : i = j
  · subst hij
    have hle : (i + 1) * n ≤ p * n := Nat.mul_le_mul_right n hi
    rw [Nat.succ_mul] at hle
    obtain ⟨A', e, h⟩ := hL.setDiagonal (rankOf p i i) (hA i i hi hj) (d := d.drop (i * n))
      (show n ≤ d.size - i * n by omega)
    refine ⟨A', by rw [if_pos rfl, ho]; exact e, hL.congr h fun r s hr hs => ?_⟩
    show (if r = s then kp (d.get (i * n + r)) else _) = if i * n + r = i * n + s then _ else _
    by_cases hrs : r = s
    · rw [if_pos hrs, if_pos (by omega)]
    · rw [if_neg hrs, if_neg (by omega)]
      rfl
  · refine ⟨D (rankOf p i j), by rw [if_neg hij]; rfl, hL.congr (hA i j hi hj) fun r s hr hs => ?_⟩
    show _ = if i * n + r = j * n + s then _ else a (i * n + r) (j * n + s)
    rw [if_neg]
    · rfl
    · intro h
      exact hij (addr_inj hr hs h).1

theorem row_range {i I : Nat} : (¬ i < I * n ∧ ¬ i ≥ (I + 1) * n) ↔ ∃ r, r < n ∧ i = I * n + r := by
  rw [Nat.succ_mul]
  constructor
  · rintro ⟨h1, h2⟩
    exact ⟨i - I * n, by omega, by omega⟩
  · rintro ⟨r, hr, rfl⟩
    omega

theorem calls_setRow (hL : L.Exact n m kp thr Rep RepC) (hp : 0 < p) (hA : Holds Rep p n D a)
    (k : Nat) {row : Arr R} (hrow : p * n ≤ row.size) :
    ∃ D', Calls p (fun r => setRow L p (p * n) r (D r) k row) D' ∧
      Holds Rep p n D' (fun i j => if i = k then kp (row.get j) else a i j) := by
  refine calls_of hp fun i j hi hj => ?_
  unfold setRow
  rw [prow_rankOf hj, pcol_rankOf hj, Nat.mul_div_cancel_left _ hp]
  by_cases hk : ∃ r, r < n ∧ k = i * n + r
  · obtain ⟨h1, h2⟩ := row_range.2 hk
    obtain ⟨q, hq, rfl⟩ := hk
    have hle : (j + 1) * n ≤ p * n := Nat.mul_le_mul_right n hj
    rw [Nat.succ_mul] at hle
    obtain ⟨A', e, h⟩ := hL.setRow (rankOf p i j) (hA i j hi hj) hq (row := row.drop (j * n))
      (show n ≤ row.size - j * n by omega)
    refine ⟨A', by rw [if_neg h1, if_neg h2, Nat.add_sub_cancel_left]; exact e,
      hL.congr h fun r s hr hs => ?_⟩
    show (if r = q then kp (row.get (j * n + s)) else _) = if i * n + r = i * n + q then _ else _
    by_cases hrs : r = q
    · rw [if_pos hrs, if_pos (by omega)]
    · rw [if_neg hrs, if_neg (by omega)]
      rfl
  · have hout : ¬ (¬ k < i * n ∧ ¬ k ≥ (i + 1) * n) := fun h => hk (row_range.1 h)
    refine ⟨D (rankOf p i j), ?_, hL.congr (hA i j hi hj) fun r s hr hs => ?_⟩
    · by_cases h1 : k < i * n
      · rw [if_pos h1]; rfl
      · rw [if_neg h1, if_pos (by by_contra h2; exact hout ⟨h1, h2⟩)]; rfl
    · show _ = if i * n + r = k then _ else a (i * n + r) (j * n + s)
      rw [if_neg fun h => hk ⟨r, hr, h.symm⟩]
      rfl

theorem calls_zero (hL : L.Exact n m kp thr Rep RepC) (hp : 0 < p) (hn : 0 < n) {M : Nat} (hM0 : 0 < M)
    (hM : M / p = m) : ∃ D', Calls p (zeroMatrix L p (p * n) M) D' ∧ Holds Rep p n D' Spec.zero := by
  refine calls_of hp fun i j hi hj => ?_
  unfold zeroMatrix
  have h1 : 0 < p * n := Nat.mul_pos hp hn
  rw [Nat.mul_div_cancel_left _ hp, if_pos ⟨h1, hM0, Nat.mul_comm n p⟩, hM]
  exact hL.zero _

theorem calls_identity (hL : L.Exact n m kp thr Rep RepC) (hp : 0 < p) {M : Nat} (hM0 : 0 < M)
    (hM : M / p = m) : ∃ D', Calls p (identityMatrix L p (p * n) M) D' ∧ Holds Rep p n D' Spec.one := by
  refine calls_of hp fun i j hi hj => ?_
  unfold identityMatrix
  rw [Nat.mul_div_cancel_left _ hp, if_pos ⟨hM0, Nat.mul_comm n p⟩, hM, prow_rankOf hj, pcol_rankOf hj]
  by_cases hij : i = j
  · subst hij
    rw [if_pos rfl]
    obtain ⟨A, e, h⟩ := hL.identity (rankOf p i i)
    refine ⟨A, e, hL.congr h fun r s hr hs => ?_⟩
    show (if r = s then 1 else 0) = if i * n + r = i * n + s then 1 else 0
    by_cases h : r = s
    · rw [if_pos h, if_pos (by omega)]
    · rw [if_neg h, if_neg (by omega)]
  · rw [if_neg hij]
    obtain ⟨A, e, h⟩ := hL.zero (rankOf p i j)
    refine ⟨A, e, hL.congr h fun r s hr hs => ?_⟩
    show 0 = if i * n + r = j * n + s then 1 else 0
    rw [if_neg fun h => hij (addr_inj hr hs h).1]

/-! ## Reductions -/

theorem trace_eq (hL : L.Exact n m kp thr Rep RepC) (hA : Holds Rep p n D a) :
    trace L p D = .ok (Spec.tr (p * n) a) := by
  unfold trace
  rw [sumReduce_eq (g := fun r => if prow p r = pcol p r then
    Spec.tr n (tile n (prow p r) (pcol p r) a) else 0), sum_ranks, tr_tiles]
  · congr 1
    refine Finset.sum_congr rfl fun i hi => Finset.sum_congr rfl fun j hj => ?_
    have hj := Finset.mem_range.1 hj
    rw [prow_rankOf hj, pcol_rankOf hj]
  · refine ranks_of fun i j hi hj => ?_
    rw [prow_rankOf hj, pcol_rankOf hj]
    by_cases h : i = j
    · rw [if_pos h, if_pos h]
      exact hL.trace _ (hA i j hi hj)
    · rw [if_neg h, if_neg h]; rfl

theorem sumPairs_eq {f : Nat → τ → τ → Res R} {Rep' : τ → Spec.Mat R → Prop}
    {g : Spec.Mat R → Spec.Mat R → Spec.Mat R}
    (hf : ∀ r {A B x y}, Rep A x → Rep' B y → f r A B = .ok (Spec.total n n (g x y)))
    (hg : ∀ i j x y, tile n i j (g x y) = g (tile n i j x) (tile n i j y))
    (hA : Holds Rep p n D a) (hB : Holds Rep' p n E b) :
    sumPairs f p D E = .ok (Spec.total (p * n) (p * n) (g a b)) := by
  unfold sumPairs
  rw [sumReduce_eq (g := fun r => Spec.total n n (tile n (prow p r) (pcol p r) (g a b))), sum_ranks,
    total_tiles]
  · congr 1
    refine Finset.sum_congr rfl fun i hi => Finset.sum_congr rfl fun j hj => ?_
    have hj := Finset.mem_range.1 hj
    rw [prow_rankOf hj, pcol_rankOf hj]
  · refine ranks_of fun i j hi hj => ?_
    rw [prow_rankOf hj, pcol_rankOf hj, hg]
    exact hf _ (hA i j hi hj) (hB i j hi hj)

theorem sumSquares_eq (hL : L.Exact n m kp thr Rep RepC) (hA : Holds Rep p n D a) :
    sumSquares L p D = .ok (Spec.total (p * n) (p * n) fun i j => a i j * a i j) :=
  sumPairs_eq (f := fun r A _ => L.sumSquares r A) (g := fun x _ i j => x i j * x i j)
    (fun r _ _ _ _ h _ => hL.sumSquares r h) (fun _ _ _ _ => rfl) hA hA

/-! ## Rows -/

theorem rowCountOf_eq (hp : 0 < p) {k i j : Nat} (hj : j < p) :
    rowCountOf p (p * n) k (rankOf p i j) = if k / n = i ∧ 0 < n then n else 0 := by
  unfold rowCountOf
  rw [prow_rankOf hj, Nat.mul_div_cancel_left _ hp]
  by_cases hn : 0 < n
  · have : (k ≥ i * n ∧ k < (i + 1) * n) ↔ k / n = i ∧ 0 < n := by
      constructor
      · rintro ⟨h1, h2⟩
        exact ⟨Nat.div_eq_of_lt_le h1 h2, hn⟩
      · rintro ⟨rfl, -⟩
        exact ⟨Nat.div_mul_le_self k n, Nat.lt_mul_of_div_lt (Nat.lt_succ_self _) hn⟩
    exact if_congr this rfl rfl
  · have : n = 0 := by omega
    subst this
    simp

/-- A two by two grid (or a single rank): `bml_get_row` gives the row on every rank. -/
theorem wp_getRow (hL : L.Exact n m kp thr Rep RepC) (hp : 0 < p) (hp2 : p ≤ 2) (hA : Holds Rep p n D a)
    {k : Nat} (hk : k < p * n) (junk : Nat → R) :
    (getRow L p (p * n) D k junk).wp False (fun row => row.size = p * n ∧
      ∀ j, j < p * n → row.get j = a k j) := by
  have hn : 0 < n := Nat.pos_of_ne_zero (by rintro rfl; omega)
  have hI : k / n < p := Nat.div_lt_of_lt_mul (by rw [Nat.mul_comm]; exact hk)
  have hq : k % n < n := Nat.mod_lt _ hn
  have hkk : k / n * n + k % n = k := Nat.div_add_mod' k n
  -- what the ranks send
  have hsend : ∀ r, ∃ x : Arr R, r < p * p →
      (if k ≥ prow p r * (p * n / p) ∧ k < (prow p r + 1) * (p * n / p) then
        L.getRow r (D r) (k - prow p r * (p * n / p)) else pure ⟨0, junk⟩) = .ok x ∧
      rowCountOf p (p * n) k r ≤ x.size ∧
      ∀ j, pcol p r = j → prow p r = k / n → ∀ s, s < n → x.get s = a k (j * n + s) := by
    intro r
    by_cases hr : r < p * p
    · have hrow := prow_lt hr
      have hcol := pcol_lt hr
      have e : rankOf p (prow p r) (pcol p r) = r := rankOf_coords p r
      rw [← e, rowCountOf_eq hp hcol, prow_rankOf hcol, pcol_rankOf hcol, Nat.mul_div_cancel_left _ hp]
      by_cases hi : k / n = prow p r
      · obtain ⟨x, ex, h1, h2⟩ := hL.getRow (rankOf p (prow p r) (pcol p r))
          (hA _ _ hrow hcol) hq
        have e1 : k - prow p r * n = k % n := by rw [← hi]; omega
        refine ⟨x, fun _ => ⟨?_, ?_, ?_⟩⟩
        · rw [if_pos, e1, ex]
          rw [← hi, Nat.succ_mul]
          omega
        · rw [if_pos ⟨hi, hn⟩]; omega
        · rintro j rfl - s hs
          rw [h2 s hs]
          unfold tile
          rw [← hi, hkk]
      · refine ⟨⟨0, junk⟩, fun _ => ⟨?_, ?_, ?_⟩⟩
        · rw [if_neg]
          · rfl
          · rintro ⟨h1, h2⟩
            exact hi (Nat.div_eq_of_lt_le h1 h2)
        · rw [if_neg fun h => hi h.1]
        · intro j _ h
          exact absurd h.symm hi
    · exact ⟨⟨0, junk⟩, fun h => absurd h hr⟩
  choose x hx using hsend
  unfold getRow
  rw [Res.wp_bind]
  refine Res.wp_mono (wp_rowDispls _ _) ?_
  rintro displs ⟨-, hd⟩
  -- counts and displacements of the ranks that own the row
  have hcount : ∀ r, r < p * p → rowCountOf p (p * n) k r = if k / n = prow p r then n else 0 := by
    intro r hr
    have := rowCountOf_eq hp (k := k) (n := n) (i := prow p r) (pcol_lt hr)
    rw [rankOf_coords] at this
    rw [this]
    exact if_congr (and_iff_left hn) rfl rfl
  have hdis : ∀ r, r < p * p → k / n = prow p r → displs.get r = pcol p r * n := by
    intro r hr hi
    rw [hd r hr]
    have hcol := pcol_lt hr
    have hr' : r = k / n * p + pcol p r := by rw [hi]; exact (rankOf_coords p r).symm
    have hpcol : pcol p r = 0 ∨ pcol p r = 1 := by omega
    rcases hpcol with h0 | h1
    · rw [h0, Nat.zero_mul]
      by_cases hz : r = 0
      · rw [if_pos hz]
      · rw [if_neg hz, hcount _ (by omega), if_neg]
        intro h
        have h2 : (r - 1) / p < k / n := Nat.div_lt_of_lt_mul (by
          have : k / n * p = p * (k / n) := Nat.mul_comm _ _
          omega)
        have h3 : prow p (r - 1) = (r - 1) / p := rfl
        omega
    · rw [h1, Nat.one_mul, if_neg (by omega), hcount _ (by omega), if_pos]
      have : r - 1 = rankOf p (k / n) 0 := by unfold rankOf; omega
      rw [this, prow_rankOf hp]
  have hbound : ∀ r, r < p * p → displs.get r ≤ n := by
    intro r hr
    rw [hd r hr]
    split
    · omega
    · rw [hcount _ (by omega)]
      split <;> omega
  refine Res.wp_mono (wp_allGatherv (x := x) (fun s hs => (hx s hs).1) (fun s hs => (hx s hs).2.1)
    ?_ ?_) ?_
  · intro s hs
    rw [hcount s hs]
    show _ ≤ p * n
    by_cases h : k / n = prow p s
    · rw [if_pos h, hdis s hs h]
      have := Nat.mul_le_mul_right n (Nat.succ_le_of_lt (pcol_lt hs))
      rw [Nat.succ_mul] at this
      omega
    · rw [if_neg h]
      have := hbound s hs
      have := Nat.le_mul_of_pos_left n hp
      omega
  · intro s hs t ht
    have ht' : t < p * p := by omega
    rw [hcount s hs, hcount t ht']
    by_cases h1 : k / n = prow p s
    · by_cases h2 : k / n = prow p t
      · rw [if_pos h1, if_pos h2, hdis s hs h1, hdis t ht' h2]
        right; left
        have hs' : rankOf p (prow p s) (pcol p s) = s := rankOf_coords p s
        have ht'' : rankOf p (prow p t) (pcol p t) = t := rankOf_coords p t
        unfold rankOf at hs' ht''
        rw [← h1] at hs'
        rw [← h2] at ht''
        have := Nat.mul_le_mul_right n (show pcol p t + 1 ≤ pcol p s by omega)
        rw [Nat.succ_mul] at this
        exact this
      · right; right; right; rw [if_neg h2]
    · right; right; left; rw [if_neg h1]
  · rintro out ⟨h1, h2, -⟩
    refine ⟨h1, fun j hj => ?_⟩
    have hJ : j / n < p := Nat.div_lt_of_lt_mul (by rw [Nat.mul_comm]; exact hj)
    have hjj : j / n * n + j % n = j := Nat.div_add_mod' j n
    have hjn : j % n < n := Nat.mod_lt _ hn
    have hr : rankOf p (k / n) (j / n) < p * p := rankOf_lt hI hJ
    have hrow : prow p (rankOf p (k / n) (j / n)) = k / n := prow_rankOf hJ
    have hcol : pcol p (rankOf p (k / n) (j / n)) = j / n := pcol_rankOf hJ
    have := h2 _ (j % n) hr (by rw [hcount _ hr, hrow, if_pos rfl]; exact hjn)
    rw [hdis _ hr hrow.symm, hcol, hjj] at this
    rw [this, (hx _ hr).2.2 _ hcol hrow _ hjn, hjj]

omit [CommRing R] in
/-- From three by three on, `bml_get_row` is wrong for every matrix: two ranks write to the same place. -/
theorem getRow_ub (L : Local τ R) (hp : 3 ≤ p) (hn : 0 < n) (D : Nat → τ) {k : Nat} (hk : k < p * n)
    (junk : Nat → R) : getRow L p (p * n) D k junk = .ub := by
  have hp0 : 0 < p := by omega
  have hI : k / n < p := Nat.div_lt_of_lt_mul (by rw [Nat.mul_comm]; exact hk)
  obtain ⟨displs, e, -, hd⟩ := Res.wp_exists (wp_rowDispls (E := False) (p * p) (rowCountOf p (p * n) k))
  unfold getRow
  rw [e, Res.bind_ok]
  unfold allGatherv
  have hc : ∀ j, j < p → rowCountOf p (p * n) k (rankOf p (k / n) j) = n := by
    intro j hj
    rw [rowCountOf_eq hp0 hj, if_pos ⟨rfl, hn⟩]
  have hdis : ∀ j, 0 < j → j < p → displs.get (rankOf p (k / n) j) = n := by
    intro j h0 hj
    rw [hd _ (rankOf_lt hI hj), if_neg (by unfold rankOf; omega)]
    have : rankOf p (k / n) j - 1 = rankOf p (k / n) (j - 1) := by unfold rankOf; omega
    rw [this, hc _ (by omega)]
  rw [if_neg]
  unfold gathervOk
  rw [decide_eq_true_iff]
  intro h
  have := h _ (rankOf_lt hI (show 2 < p by omega)) (rankOf p (k / n) 1) (by unfold rankOf; omega)
  rw [hc 2 (by omega), hc 1 (by omega), hdis 2 (by omega) (by omega), hdis 1 (by omega) (by omega)] at this
  omega

/-! ## Import and export -/

/-- The matrix that a dense array holds after the import: in row-major order the matrix itself, in
column-major order with the tiles in transposed places. -/
def imported (o : Order) (n : Nat) (a : Spec.Mat R) : Spec.Mat R :=
  match o with
  | .rowMajor => a
  | .colMajor => fun i j => a (j / n * n + i % n) (i / n * n + j % n)

theorem tileOffset_ok {r : Nat} (hN : p * n * (p * n) ≤ INT_MAX) (hr : r < p * p) :
    tileOffset p (p * n) n r = .ok (n * (p * n) * prow p r + n * pcol p r) := by
  unfold tileOffset
  have hp : 0 < p := Nat.pos_of_ne_zero (by rintro rfl; simp at hr)
  by_cases h0 : r = 0
  · subst h0
    rw [if_pos rfl]
    simp [prow, pcol]
  · have hi := prow_lt hr
    have hj := pcol_lt hr
    have h1 : n * (p * n) * p ≤ INT_MAX := by
      refine le_trans (le_of_eq ?_) hN
      ring
    have h2 : n * (p * n) ≤ n * (p * n) * p := Nat.le_mul_of_pos_right _ hp
    have h3 : n * (p * n) * prow p r ≤ n * (p * n) * p := Nat.mul_le_mul_left _ hi.le
    have h4 : n * pcol p r ≤ n * (p * n) * p := by
      rcases Nat.eq_zero_or_pos n with rfl | hn
      · simp
      · have h5 : n * pcol p r ≤ n * p := Nat.mul_le_mul_left _ hj.le
        have h6 : n * p * 1 ≤ n * p * (p * n) := Nat.mul_le_mul_left _ (Nat.mul_pos hp hn)
        have h7 : n * p * (p * n) = n * (p * n) * p := by ring
        omega
    rw [if_neg h0]
    unfold intArith
    simp only
    rw [if_pos (by omega), Res.bind_ok, if_pos (by omega), Res.bind_ok, if_pos (by omega), Res.bind_ok]
    rfl

theorem calls_importDense (hL : L.Exact n m kp thr Rep RepC) (hp : 0 < p) (hN : p * n * (p * n) ≤ INT_MAX) (o : Order) {array : Arr R}
    (hsz : p * n * (p * n) ≤ array.size) {M : Nat} (hM : M / p = m) (hm : m ≤ n) (hm0 : 0 < m)
    (junk : Nat → R) :
    ∃ D', Calls p (importDense L o p (p * n) M array junk) D' ∧
      Holds Rep p n D' (imported o n fun i j => kp (array.get (o.addr i j (p * n)))) := by
  refine calls_of hp fun i j hi hj => ?_
  have hM0 : 0 < M := Nat.pos_of_ne_zero (by rintro rfl; simp at hM; omega)
  unfold importDense
  simp only [Nat.mul_div_cancel_left _ hp, hM]
  rw [if_pos ⟨hM0, Nat.mul_comm n p, hm, hm0⟩, tileOffset_ok hN (rankOf_lt hi hj), prow_rankOf hj,
    pcol_rankOf hj, Res.bind_ok, show n * (p * n) * i = p * n * n * i by ring]
  have hsrc : ∀ c, c < n → p * n * n * i + n * j + c * (p * n) + n ≤ array.size := by
    intro c hc
    have h1 : p * n * n * i + n * j + c * (p * n) + n = (i * n + c) * (p * n) + (j + 1) * n := by ring
    have h2 : (j + 1) * n ≤ p * n := Nat.mul_le_mul_right n hj
    have h3 : i * n + c + 1 ≤ p * n := by
      have := Nat.mul_le_mul_right n (Nat.succ_le_of_lt hi)
      rw [Nat.succ_mul] at this
      omega
    have h4 := Nat.mul_le_mul_right (p * n) h3
    rw [Nat.succ_mul] at h4
    omega
  obtain ⟨buf, e, h1, h2, -⟩ := Res.wp_exists (wp_lacpy (E := False) (n := n) (src := array)
    (s := p * n * n * i + n * j) (lds := p * n) (dst := ⟨n * n, junk⟩) (d := 0) (ldd := n) hsrc
    (fun c hc => by
      have := Nat.mul_le_mul_right n (Nat.succ_le_of_lt hc)
      rw [Nat.succ_mul] at this
      show _ ≤ n * n
      omega) (le_refl _))
  rw [e, Res.bind_ok]
  obtain ⟨A, eA, hA⟩ := hL.importDense (rankOf p i j) o (buf := buf) (by rw [h1])
  refine ⟨A, eA, hL.congr hA fun r s hr hs => ?_⟩
  have key : ∀ c k, c < n → k < n → buf.get (c * n + k) = array.get ((i * n + c) * (p * n) + (j * n + k)) := by
    intro c k hc hk
    have := h2 c k hc hk
    rw [Nat.zero_add] at this
    rw [this]
    congr 1
    ring
  cases o with
  | rowMajor =>
    show kp (buf.get (r * n + s)) = kp (array.get ((i * n + r) * (p * n) + (j * n + s)))
    rw [key r s hr hs]
  | colMajor =>
    have hd : ∀ x y, y < n → (x * n + y) / n = x := fun x y hy => by
      rw [Nat.add_comm, Nat.add_mul_div_right _ _ (by omega), Nat.div_eq_of_lt hy, Nat.zero_add]
    have hm' : ∀ x y, y < n → (x * n + y) % n = y := fun x y hy => by
      rw [Nat.mul_add_mod', Nat.mod_eq_of_lt hy]
    show kp (buf.get (r + s * n)) = kp (array.get (((j * n + s) / n * n + (i * n + r) % n) +
      ((i * n + r) / n * n + (j * n + s) % n) * (p * n)))
    rw [hd _ _ hs, hd _ _ hr, hm' _ _ hs, hm' _ _ hr, Nat.add_comm r, key s r hs hr, Nat.add_comm (j * n + r)]

theorem wp_exportDense (hL : L.Exact n m kp thr Rep RepC) (hp : 0 < p) (hN : p * n * (p * n) ≤ INT_MAX) (o : Order) (hA : Holds Rep p n D a)
    (junk : Nat → R) : (exportDense L o p (p * n) D junk).wp False (fun out =>
      out.size = p * n * (p * n) ∧ ∀ i j, i < p * n → j < p * n →
        out.get (o.addr i j (p * n)) = imported o n a i j) := by
  rcases Nat.eq_zero_or_pos n with rfl | hn
  · refine Res.wp_mono (wp_loop' (fun _ (out : Arr R) => out.size = p * 0 * (p * 0)) rfl ?_
      (fun _ h => h)) ?_
    · intro k hk out ho
      obtain ⟨buf, e, h1, h2⟩ := hL.exportDense k
        (by have := hA _ _ (prow_lt hk) (pcol_lt hk); rwa [rankOf_coords] at this) o
      rw [e, Res.bind_ok]
      simp only [Nat.mul_div_cancel_left _ hp]
      rw [tileOffset_ok hN hk, Res.bind_ok]
      exact ho
    · intro out ho
      exact ⟨ho, fun i j hi _ => absurd hi (by simp)⟩
  unfold exportDense
  simp only [Nat.mul_div_cancel_left _ hp]
  refine Res.wp_mono (wp_loop' (fun k (out : Arr R) => out.size = p * n * (p * n) ∧
    ∀ I J c s, I < p → J < p → rankOf p I J < k → c < n → s < n →
      out.get ((I * n + c) * (p * n) + (J * n + s)) =
        match o with
        | .rowMajor => tile n I J a c s
        | .colMajor => tile n I J a s c) ⟨rfl, fun _ _ _ _ _ _ h => absurd h (Nat.not_lt_zero _)⟩ ?_
    (fun _ h => h)) ?_
  · rintro k hk out ⟨h1, h2⟩
    have hI := prow_lt hk
    have hJ := pcol_lt hk
    have hrep := hA _ _ hI hJ
    rw [rankOf_coords] at hrep
    obtain ⟨buf, e, g1, g2⟩ := hL.exportDense k hrep o
    rw [e, Res.bind_ok, tileOffset_ok hN hk, Res.bind_ok]
    have hle : prow p k * n + n ≤ p * n := by
      have := Nat.mul_le_mul_right n (Nat.succ_le_of_lt hI)
      rwa [Nat.succ_mul] at this
    have hle' : pcol p k * n + n ≤ p * n := by
      have := Nat.mul_le_mul_right n (Nat.succ_le_of_lt hJ)
      rwa [Nat.succ_mul] at this
    have haddr : ∀ c s, n * (p * n) * prow p k + n * pcol p k + c * (p * n) + s =
        (prow p k * n + c) * (p * n) + (pcol p k * n + s) := fun c s => by ring
    refine Res.wp_mono (wp_lacpy (fun c hc => ?_) (fun c hc => ?_) (Nat.le_mul_of_pos_left n hp)) ?_
    · have := Nat.mul_le_mul_right n (Nat.succ_le_of_lt hc)
      rw [Nat.succ_mul] at this
      omega
    · rw [h1]
      have h3 : prow p k * n + c + 1 ≤ p * n := by omega
      have h4 := Nat.mul_le_mul_right (p * n) h3
      rw [Nat.succ_mul] at h4
      have := haddr c n
      omega
    · rintro out' ⟨q1, q2, q3⟩
      refine ⟨q1.trans h1, fun I J c s hI' hJ' hlt hc hs => ?_⟩
      by_cases heq : rankOf p I J = k
      · have eI : prow p k = I := by rw [← heq, prow_rankOf hJ']
        have eJ : pcol p k = J := by rw [← heq, pcol_rankOf hJ']
        have := q2 c s hc hs
        rw [haddr, eI, eJ] at this
        rw [this, Nat.zero_add]
        cases o with
        | rowMajor =>
          have := g2 c s hc hs
          rw [eI, eJ] at this
          exact this
        | colMajor =>
          have := g2 s c hs hc
          rw [eI, eJ] at this
          rw [← this, Nat.add_comm]
          rfl
      · rw [q3]
        · exact h2 I J c s hI' hJ' (by omega) hc hs
        · intro c' s' hc' hs'
          rw [haddr]
          intro h
          have hb : ∀ J s, J < p → s < n → J * n + s < p * n := fun J s hJ hs => by
            have := Nat.mul_le_mul_right n (Nat.succ_le_of_lt hJ)
            rw [Nat.succ_mul] at this
            omega
          obtain ⟨w1, w2⟩ := addr_inj (hb J s hJ' hs) (hb _ s' hJ hs') h
          have w3 := (addr_inj hc hc' w1).1
          have w4 := (addr_inj hs hs' w2).1
          exact heq (by rw [w3, w4, rankOf_coords])
  · rintro out ⟨h1, h2⟩
    refine ⟨h1, fun i j hi hj => ?_⟩
    have hdm : ∀ x, x / n * n + x % n = x := fun x => Nat.div_add_mod' x n
    have hml : ∀ x, x % n < n := fun x => Nat.mod_lt _ hn
    have hdl : ∀ x, x < p * n → x / n < p := fun x hx =>
      Nat.div_lt_of_lt_mul (by rw [Nat.mul_comm]; exact hx)
    cases o with
    | rowMajor =>
      have := h2 (i / n) (j / n) (i % n) (j % n) (hdl i hi) (hdl j hj)
        (rankOf_lt (hdl i hi) (hdl j hj)) (hml i) (hml j)
      unfold tile at this
      simp only [hdm] at this
      exact this
    | colMajor =>
      have := h2 (j / n) (i / n) (j % n) (i % n) (hdl j hj) (hdl i hi)
        (rankOf_lt (hdl j hj) (hdl i hi)) (hml j) (hml i)
      unfold tile at this
      simp only [hdm] at this
      show out.get (i + j * (p * n)) = a (j / n * n + i % n) (i / n * n + j % n)
      rw [Nat.add_comm]
      exact this

/-! ## Transposition -/

omit [CommRing R] in
theorem transposeNew_matched (L : Local τ R) (p : Nat) : (transposeNewNet L p).Matched := by
  have key : ∀ r, r < p * p → prow p r ≠ pcol p r → pcol p r * p + prow p r < p * p ∧
      prow p (pcol p r * p + prow p r) ≠ pcol p (pcol p r * p + prow p r) ∧
      pcol p (pcol p r * p + prow p r) * p + prow p (pcol p r * p + prow p r) = r := by
    intro r hr hne
    have h1 := prow_lt hr
    have h2 := pcol_lt hr
    refine ⟨rankOf_lt h2 h1, ?_, ?_⟩
    · show prow p (rankOf p _ _) ≠ pcol p (rankOf p _ _)
      rw [prow_rankOf h1, pcol_rankOf h1]
      exact hne.symm
    · show pcol p (rankOf p _ _) * p + prow p (rankOf p _ _) = r
      rw [prow_rankOf h1, pcol_rankOf h1]
      exact rankOf_coords p r
  constructor
  · intro k r _ hr hp
    obtain ⟨h1, h2, h3⟩ := key r hr (by simpa [transposeNewNet] using hp)
    exact ⟨h1, by simpa [transposeNewNet] using h2, h3⟩
  · intro k r _ hr hp
    obtain ⟨h1, h2, h3⟩ := key r hr (by simpa [transposeNewNet] using hp)
    exact ⟨h1, by simpa [transposeNewNet] using h2, h3⟩

omit [CommRing R] in
theorem transpose_matched (L : Local τ R) (p : Nat) : (transposeNet L p).Matched :=
  ⟨(transposeNew_matched L p).1, (transposeNew_matched L p).2⟩

theorem transposeStart_ok (hL : L.Exact n m kp thr Rep RepC) (hA : Holds Rep p n D a) {M : Nat}
    (hM : M / p = m) {i j : Nat} (hi : i < p) (hj : j < p) :
    ∃ s, transposeStart L p M D (rankOf p i j) = .ok s ∧ Rep s.1 (tile n i j a) ∧ Rep s.2 (tile n i j a) := by
  obtain ⟨B, e, hB⟩ := hL.copyNew (rankOf p i j) (hA i j hi hj)
  refine ⟨(D (rankOf p i j), B), ?_, hA i j hi hj, hB⟩
  unfold transposeStart copyNew
  rw [hM, e]
  rfl

theorem transposeNew_sync (hL : L.Exact n m kp thr Rep RepC) (hA : Holds Rep p n D a) {M : Nat}
    (hM : M / p = m) {i j : Nat} (hi : i < p) (hj : j < p) :
    ∃ s, (transposeNewNet L p).sync (transposeStart L p M D) 1 (rankOf p i j) = .ok s ∧
      Rep s.1 (tile n i j a) ∧ Rep s.2 (tile n i j (Spec.transpose a)) := by
  obtain ⟨s, e, h1, h2⟩ := transposeStart_ok hL hA hM hi hj
  show ∃ t, (transposeNewNet L p).fin 0 _ (transposeStart L p M D (rankOf p i j))
    (if decide (prow p (rankOf p i j) ≠ pcol p (rankOf p i j)) = true then
      some (transposeStart L p M D (rankOf p (pcol p (rankOf p i j)) (prow p (rankOf p i j))) >>=
        fun s => pure s.1) else none) = .ok t ∧ _
  rw [prow_rankOf hj, pcol_rankOf hj, e]
  by_cases hij : i = j
  · subst hij
    obtain ⟨B, eB, hB⟩ := hL.transpose (rankOf p i i) h2
    refine ⟨(s.1, B), ?_, h1, hB⟩
    rw [if_neg (by simp)]
    simp only [transposeNewNet, Res.bind_ok, Res.pure_eq]
    rw [eB]
    rfl
  · obtain ⟨s', e', h1', -⟩ := transposeStart_ok hL hA hM hj hi
    obtain ⟨B, eB, hB⟩ := hL.deliver h1' h2
    obtain ⟨C, eC, hC⟩ := hL.transpose (rankOf p i j) hB
    refine ⟨(s.1, C), ?_, h1, hC⟩
    rw [if_pos (by simpa using hij), e']
    simp only [transposeNewNet, Res.bind_ok, Res.pure_eq]
    rw [eB, Res.bind_ok, eC]
    rfl

theorem transpose_sync (hL : L.Exact n m kp thr Rep RepC) (hA : Holds Rep p n D a) {M : Nat}
    (hM : M / p = m) {i j : Nat} (hi : i < p) (hj : j < p) :
    ∃ s, (transposeNet L p).sync (transposeStart L p M D) 1 (rankOf p i j) = .ok s ∧
      Rep s.1 (tile n i j (Spec.transpose a)) := by
  obtain ⟨s, e, h1, h2⟩ := transposeStart_ok hL hA hM hi hj
  show ∃ t, (transposeNet L p).fin 0 _ (transposeStart L p M D (rankOf p i j))
    (if decide (prow p (rankOf p i j) ≠ pcol p (rankOf p i j)) = true then
      some (transposeStart L p M D (rankOf p (pcol p (rankOf p i j)) (prow p (rankOf p i j))) >>=
        fun s => pure s.2) else none) = .ok t ∧ _
  rw [prow_rankOf hj, pcol_rankOf hj, e]
  by_cases hij : i = j
  · subst hij
    obtain ⟨B, eB, hB⟩ := hL.transpose (rankOf p i i) h1
    refine ⟨(B, s.2), ?_, hB⟩
    rw [if_neg (by simp)]
    simp only [transposeNet, Res.bind_ok, Res.pure_eq]
    rw [eB]
    rfl
  · obtain ⟨s', e', -, h1'⟩ := transposeStart_ok hL hA hM hj hi
    obtain ⟨B, eB, hB⟩ := hL.deliver h1' h1
    obtain ⟨C, eC, hC⟩ := hL.transpose (rankOf p i j) hB
    refine ⟨(C, s.2), ?_, hC⟩
    rw [if_pos (by simpa using hij), e']
    simp only [transposeNet, Res.bind_ok, Res.pure_eq]
    rw [eB, Res.bind_ok, eC]
    rfl

/-! ## Normalisation and Gershgorin bounds -/

section Gersh

variable {K : Type} [Field K]

theorem calls_normalize {L : Local τ K} {kp thr : K → K} {Rep RepC : τ → Spec.Mat K → Prop} {a : Spec.Mat K}
    (hL : L.Exact n m kp thr Rep RepC) (hkp : ∀ x, kp x = x) (hp : 0 < p) (hA : Holds Rep p n D a)
    (mn mx : K) : ∃ D', Calls p (fun r => normalize L p r (D r) mn mx) D' ∧
      Holds Rep p n D' (Spec.normalize mn mx a) := by
  refine calls_of hp fun i j hi hj => ?_
  obtain ⟨A1, e1, h1⟩ := hL.scaleInplace (rankOf p i j) (hA i j hi hj) (-1 / (mx - mn))
  unfold normalize
  rw [e1, Res.bind_ok, prow_rankOf hj, pcol_rankOf hj]
  by_cases hij : i = j
  · subst hij
    obtain ⟨A2, e2, h2⟩ := hL.addIdentity (rankOf p i i) h1 (mx / (mx - mn))
    refine ⟨A2, by rw [if_pos rfl]; exact e2, hL.congr h2 fun r s hr hs => ?_⟩
    rw [hkp]
    show -1 / (mx - mn) * a (i * n + r) (i * n + s) + mx / (mx - mn) * (if r = s then 1 else 0) =
      ((if i * n + r = i * n + s then mx else 0) - a (i * n + r) (i * n + s)) / (mx - mn)
    by_cases h : r = s
    · rw [if_pos h, if_pos (by omega)]; ring
    · rw [if_neg h, if_neg (by omega)]; ring
  · refine ⟨A1, by rw [if_neg hij]; rfl, hL.congr h1 fun r s hr hs => ?_⟩
    show -1 / (mx - mn) * a (i * n + r) (j * n + s) =
      ((if i * n + r = j * n + s then mx else 0) - a (i * n + r) (j * n + s)) / (mx - mn)
    rw [if_neg fun h => hij (addr_inj hr hs h).1]
    ring

variable [LinearOrder K] {off : Nat → Bool → τ → Res (Arr K)} {diag : Nat → τ → Res (Arr R)}

omit [LinearOrder K] in
theorem radius_eq (absv : R → K) (n : Nat) (a : Spec.Mat R) (i : Nat) : Spec.radius absv n a i =
    ∑ j ∈ Finset.range n, if j ≠ i then absv (a i j) else 0 := Finset.sum_filter _ _

omit [LinearOrder K] in
theorem radius_tiles (absv : R → K) {q i : Nat} (hi : i < n) :
    Spec.radius absv (p * n) a (q * n + i) =
      ∑ c ∈ Finset.range p, (Spec.radius absv n (tile n q c a) i +
        if q ≠ c then absv (tile n q c a i i) else 0) := by
  rw [radius_eq, sum_tiles]
  refine Finset.sum_congr rfl fun c _ => ?_
  rw [radius_eq]
  by_cases hqc : q = c
  · subst hqc
    rw [if_neg (by simp), add_zero]
    refine Finset.sum_congr rfl fun s hs => ?_
    by_cases h : s = i
    · rw [if_neg (by omega), if_neg (by omega)]
    · rw [if_pos (by omega), if_pos h]
      rfl
  · rw [if_pos hqc]
    rw [← Finset.sum_erase_add _ _ (Finset.mem_range.2 hi),
      ← Finset.sum_erase_add (a := i) (Finset.range n) (fun j => if j ≠ i then _ else _)
        (Finset.mem_range.2 hi)]
    rw [if_pos fun h => hqc (addr_inj hi hi h).1.symm, if_neg (by simp), add_zero]
    congr 1
    refine Finset.sum_congr rfl fun s hs => ?_
    obtain ⟨h1, h2⟩ := Finset.mem_erase.1 hs
    rw [if_pos h1, if_pos fun h => hqc (addr_inj (Finset.mem_range.1 h2) hi h).1.symm]
    rfl

/-- The least of a family with a bound is found by folding. -/
theorem reduce_min {P : Nat} {top : K} {v : Nat → Res K} {g : Nat → K} (h : ∀ r, r < P → v r = .ok (g r)) :
    ∃ x, reduce min P top v = .ok x ∧ x ≤ top ∧ (∀ r, r < P → x ≤ g r) ∧
      (x = top ∨ ∃ r, r < P ∧ x = g r) := by
  induction P with
  | zero => exact ⟨top, rfl, le_refl _, fun r hr => absurd hr (Nat.not_lt_zero r), Or.inl rfl⟩
  | succ P ih =>
    obtain ⟨x, e, h1, h2, h3⟩ := ih fun r hr => h r (by omega)
    refine ⟨min x (g P), ?_, le_trans (min_le_left _ _) h1, fun r hr => ?_, ?_⟩
    · unfold reduce at e ⊢
      rw [loop_succ, e, Res.bind_ok, h P (by omega)]
      rfl
    · rcases Nat.lt_succ_iff_lt_or_eq.1 hr with hr | rfl
      · exact le_trans (min_le_left _ _) (h2 r hr)
      · exact min_le_right _ _
    · rcases min_choice x (g P) with h4 | h4 <;> rw [h4]
      · rcases h3 with h3 | ⟨r, hr, h3⟩
        · exact Or.inl h3
        · exact Or.inr ⟨r, by omega, h3⟩
      · exact Or.inr ⟨P, by omega, rfl⟩

theorem reduce_max {P : Nat} {bot : K} {v : Nat → Res K} {g : Nat → K} (h : ∀ r, r < P → v r = .ok (g r)) :
    ∃ x, reduce max P bot v = .ok x ∧ bot ≤ x ∧ (∀ r, r < P → g r ≤ x) ∧
      (x = bot ∨ ∃ r, r < P ∧ x = g r) := by
  induction P with
  | zero => exact ⟨bot, rfl, le_refl _, fun r hr => absurd hr (Nat.not_lt_zero r), Or.inl rfl⟩
  | succ P ih =>
    obtain ⟨x, e, h1, h2, h3⟩ := ih fun r hr => h r (by omega)
    refine ⟨max x (g P), ?_, le_trans h1 (le_max_left _ _), fun r hr => ?_, ?_⟩
    · unfold reduce at e ⊢
      rw [loop_succ, e, Res.bind_ok, h P (by omega)]
      rfl
    · rcases Nat.lt_succ_iff_lt_or_eq.1 hr with hr | rfl
      · exact le_trans (h2 r hr) (le_max_left _ _)
      · exact le_max_right _ _
    · rcases max_choice x (g P) with h4 | h4 <;> rw [h4]
      · rcases h3 with h3 | ⟨r, hr, h3⟩
        · exact Or.inl h3
        · exact Or.inr ⟨r, by omega, h3⟩
      · exact Or.inr ⟨P, by omega, rfl⟩

theorem gershRank_spec (hdiag : ∀ r {A x}, Rep A x → ∃ d, diag r A = .ok d ∧ d.size = n ∧
      ∀ i, i < n → d.get i = x i i) {absv : R → K}
    (hoff : ∀ r incl {A x}, Rep A x → ∃ s, off r incl A = .ok s ∧ s.size = n ∧ ∀ i, i < n →
      s.get i = Spec.radius absv n x i + if incl = true then absv (x i i) else 0)
    (hp : 0 < p) (hA : Holds Rep p n D a) (re : R → K) (top bot : K) {i j : Nat} (hi : i < p) (hj : j < p) :
    ∃ e, gershRank diag off re top bot p (p * n) D (rankOf p i j) = .ok e ∧
      (i ≠ j → e = (top, bot)) ∧
      (i = j →
        Ell.IsMinOf top (i * n) (i * n + n) (fun k => re (a k k) - Spec.radius absv (p * n) a k) e.1 ∧
        Ell.IsMaxOf bot (i * n) (i * n + n) (fun k => re (a k k) + Spec.radius absv (p * n) a k) e.2) := by
  unfold gershRank
  rw [prow_rankOf hj, pcol_rankOf hj]
  by_cases hij : i = j
  · subst hij
    rw [if_pos rfl]
    obtain ⟨d, ed, hd1, hd2⟩ := hdiag (rankOf p i i) (hA i i hi hj)
    have hrad : ∀ k, k < n → rowRadius off p D i k = .ok (Spec.radius absv (p * n) a (i * n + k)) := by
      intro k hk
      unfold rowRadius
      rw [radius_tiles absv hk]
      refine sumReduce_eq fun c hc => ?_
      obtain ⟨s, es, hs1, hs2⟩ := hoff (rankOf p i c) (decide (i ≠ c)) (hA i c hi hc)
      rw [es, Res.bind_ok, Arr.read_ok (by omega), hs2 k hk]
      simp only [decide_eq_true_eq]
    have := Res.wp_exists (r := loop (p * n / p) (top, bot) fun k st => do
        let x ← d.read k
        let rad ← rowRadius off p D i k
        let emax := if re x + rad > st.2 then re x + rad else st.2
        let emin := if re x - rad < st.1 then re x - rad else st.1
        pure (emin, emax)) (wp_loop' (E := False) (fun k (e : K × K) =>
      Ell.IsMinOf top (i * n) (i * n + k) (fun k => re (a k k) - Spec.radius absv (p * n) a k) e.1 ∧
      Ell.IsMaxOf bot (i * n) (i * n + k) (fun k => re (a k k) + Spec.radius absv (p * n) a k) e.2)
      ⟨⟨le_refl _, fun k _ _ => by omega, Or.inl rfl⟩, ⟨le_refl _, fun k _ _ => by omega, Or.inl rfl⟩⟩ ?_
      (fun _ h => h))
    · obtain ⟨e, he, h1, h2⟩ := this
      rw [Nat.mul_div_cancel_left _ hp] at h1 h2
      refine ⟨e, ?_, fun h => absurd rfl h, fun _ => ⟨h1, h2⟩⟩
      rw [ed, Res.bind_ok]
      exact he
    · rw [Nat.mul_div_cancel_left _ hp]
      rintro k hk ⟨mn, mx⟩ ⟨⟨a1, a2, a3⟩, ⟨b1, b2, b3⟩⟩
      rw [Arr.read_ok (by omega), Res.bind_ok, hrad k hk, Res.bind_ok, Res.pure_eq, Res.wp_ok, hd2 k hk]
      simp only at a1 a2 a3 b1 b2 b3 ⊢
      have hkk : tile n i i a k k = a (i * n + k) (i * n + k) := rfl
      rw [hkk]
      constructor
      · by_cases h : re (a (i * n + k) (i * n + k)) - Spec.radius absv (p * n) a (i * n + k) < mn
        · rw [if_pos h]
          refine ⟨le_trans h.le a1, fun x h1 h2 => ?_, Or.inr ⟨i * n + k, by omega, by omega, rfl⟩⟩
          by_cases hx : x = i * n + k
          · rw [hx]
          · exact le_trans h.le (a2 x h1 (by omega))
        · rw [if_neg h]
          refine ⟨a1, fun x h1 h2 => ?_, ?_⟩
          · by_cases hx : x = i * n + k
            · rw [hx]; exact not_lt.1 h
            · exact a2 x h1 (by omega)
          · rcases a3 with a3 | ⟨x, x1, x2, x3⟩
            · exact Or.inl a3
            · exact Or.inr ⟨x, x1, by omega, x3⟩
      · by_cases h : re (a (i * n + k) (i * n + k)) + Spec.radius absv (p * n) a (i * n + k) > mx
        · rw [if_pos h]
          refine ⟨le_trans b1 h.le, fun x h1 h2 => ?_, Or.inr ⟨i * n + k, by omega, by omega, rfl⟩⟩
          by_cases hx : x = i * n + k
          · rw [hx]
          · exact le_trans (b2 x h1 (by omega)) h.le
        · rw [if_neg h]
          refine ⟨b1, fun x h1 h2 => ?_, ?_⟩
          · by_cases hx : x = i * n + k
            · rw [hx]; exact not_lt.1 h
            · exact b2 x h1 (by omega)
          · rcases b3 with b3 | ⟨x, x1, x2, x3⟩
            · exact Or.inl b3
            · exact Or.inr ⟨x, x1, by omega, x3⟩
  · exact ⟨(top, bot), by rw [if_neg hij]; rfl, fun _ => rfl, fun h => absurd h hij⟩

theorem gershgorin_spec (hdiag : ∀ r {A x}, Rep A x → ∃ d, diag r A = .ok d ∧ d.size = n ∧
      ∀ i, i < n → d.get i = x i i) {absv : R → K}
    (hoff : ∀ r incl {A x}, Rep A x → ∃ s, off r incl A = .ok s ∧ s.size = n ∧ ∀ i, i < n →
      s.get i = Spec.radius absv n x i + if incl = true then absv (x i i) else 0)
    (hp : 0 < p) (hA : Holds Rep p n D a) (re : R → K) (top bot : K) :
    ∃ e, gershgorin diag off re top bot p (p * n) D = .ok e ∧
      Ell.IsMinOf top 0 (p * n) (fun k => re (a k k) - Spec.radius absv (p * n) a k) e.1 ∧
      Ell.IsMaxOf bot 0 (p * n) (fun k => re (a k k) + Spec.radius absv (p * n) a k) e.2 := by
  have hr : ∀ r, ∃ e : K × K, r < p * p → gershRank diag off re top bot p (p * n) D r = .ok e ∧
      (prow p r ≠ pcol p r → e = (top, bot)) ∧
      (prow p r = pcol p r →
        Ell.IsMinOf top (prow p r * n) (prow p r * n + n)
          (fun k => re (a k k) - Spec.radius absv (p * n) a k) e.1 ∧
        Ell.IsMaxOf bot (prow p r * n) (prow p r * n + n)
          (fun k => re (a k k) + Spec.radius absv (p * n) a k) e.2) := by
    intro r
    by_cases hr : r < p * p
    · obtain ⟨e, h⟩ := gershRank_spec hdiag hoff hp hA re top bot (prow_lt hr) (pcol_lt hr)
      rw [rankOf_coords] at h
      exact ⟨e, fun _ => h⟩
    · exact ⟨(top, bot), fun h => absurd h hr⟩
  choose e he using hr
  obtain ⟨x, ex, x1, x2, x3⟩ := reduce_min (top := top) (g := fun r => (e r).1)
    (v := fun r => gershRank diag off re top bot p (p * n) D r >>= fun e => pure e.1) (P := p * p)
    (fun r hr => by rw [(he r hr).1]; rfl)
  obtain ⟨y, ey, y1, y2, y3⟩ := reduce_max (bot := bot) (g := fun r => (e r).2)
    (v := fun r => gershRank diag off re top bot p (p * n) D r >>= fun e => pure e.2) (P := p * p)
    (fun r hr => by rw [(he r hr).1]; rfl)
  have hblk : ∀ i, i < p → i * n + n ≤ p * n := fun i hi => by
    have := Nat.mul_le_mul_right n (Nat.succ_le_of_lt hi)
    rwa [Nat.succ_mul] at this
  have hfind : ∀ k, k < p * n → k / n < p ∧ k / n * n ≤ k ∧ k < k / n * n + n := by
    intro k hk
    have hn : 0 < n := Nat.pos_of_ne_zero (by rintro rfl; omega)
    refine ⟨Nat.div_lt_of_lt_mul (by rw [Nat.mul_comm]; exact hk), Nat.div_mul_le_self k n, ?_⟩
    have h1 : k / n * n + k % n = k := Nat.div_add_mod' k n
    have h2 : k % n < n := Nat.mod_lt _ hn
    omega
  refine ⟨(x, y), ?_, ⟨x1, fun k _ hk => ?_, ?_⟩, ⟨y1, fun k _ hk => ?_, ?_⟩⟩
  · unfold gershgorin
    rw [ex, Res.bind_ok, ey]
    rfl
  · obtain ⟨h1, h2, h3⟩ := hfind k hk
    have h4 := rankOf_lt h1 h1
    have h5 := ((he _ h4).2.2 (by rw [prow_rankOf h1, pcol_rankOf h1])).1
    rw [prow_rankOf h1] at h5
    exact le_trans (x2 _ h4) (h5.2.1 k h2 h3)
  · rcases x3 with x3 | ⟨r, hr, x3⟩
    · exact Or.inl x3
    · by_cases h : prow p r = pcol p r
      · rcases ((he r hr).2.2 h).1.2.2 with h4 | ⟨k, k1, k2, k3⟩
        · exact Or.inl (x3.trans h4)
        · have := hblk _ (prow_lt hr)
          exact Or.inr ⟨k, Nat.zero_le k, by omega, x3.trans k3⟩
      · exact Or.inl (x3.trans (by rw [(he r hr).2.1 h]))
  · obtain ⟨h1, h2, h3⟩ := hfind k hk
    have h4 := rankOf_lt h1 h1
    have h5 := ((he _ h4).2.2 (by rw [prow_rankOf h1, pcol_rankOf h1])).2
    rw [prow_rankOf h1] at h5
    exact le_trans (h5.2.1 k h2 h3) (y2 _ h4)
  · rcases y3 with y3 | ⟨r, hr, y3⟩
    · exact Or.inl y3
    · by_cases h : prow p r = pcol p r
      · rcases ((he r hr).2.2 h).2.2.2 with h4 | ⟨k, k1, k2, k3⟩
        · exact Or.inl (y3.trans h4)
        · have := hblk _ (prow_lt hr)
          exact Or.inr ⟨k, Nat.zero_le k, by omega, y3.trans k3⟩
      · exact Or.inl (y3.trans (by rw [(he r hr).2.1 h]))

end Gersh

end Bml.Dist
