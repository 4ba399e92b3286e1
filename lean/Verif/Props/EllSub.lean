import Verif.Props.EllOps
import Verif.Ellpack.Submatrix
import Verif.Wlp

/-!
# Property theorems: ELLPACK submatrices (C28, C40)
-/

namespace Bml.Props

open Bml Bml.Ell

variable {R : Type} [CommRing R]

/-! ## C28 -/

/-- **C28**, `bml_extract_submatrix`: the `n × n` block at `(irow, icol)`, if the columns that row
`irow + i` stores inside the block fit into the `BM` slots of a row of the result. -/
theorem C28_extract {N n BM irow icol : Nat} {A : Ell R} {a : Spec.Mat R}
    (hA : A.Represents N a) (hBM : 0 < BM) (hr : irow + n ≤ N) (hc : icol + n ≤ N)
    (hfit : ∀ i, i < n →
      ((Finset.range n).filter (fun j => A.Stored (irow + i) (icol + j))).card ≤ BM) :
    ∃ B, extractSubmatrix A irow icol n BM = .ok B ∧ B.M = BM ∧
      B.Represents n (fun i j => a (irow + i) (icol + j)) := by
  have hR := represents_iff.1 hA
  have hg : ∀ i, i < n → SRow.Good n (SRow.cut icol n (A.row (irow + i))) :=
    fun i hi => SRow.good_cut _ _ (hR.good _ (by omega))
  obtain ⟨B, e, h⟩ := Res.wp_exists (wp_extractSubmatrix (E := False) hR (icol := icol) hBM hr
    (fun i hi => by
      refine le_trans ?_ (hfit i hi)
      rw [← List.length_map (f := Prod.fst)]
      refine le_of_eq (SRow.length_eq_card (N := n) (hg i hi).1
        (fun j => decide (A.Stored (irow + i) (icol + j))) (fun j => ?_) |>.trans ?_)
      · simp only [SRow.cut, List.map_map, List.mem_map, List.mem_filter, decide_eq_true_eq,
          stored_iff, Function.comp]
        constructor
        · rintro ⟨p, ⟨hp, h1, h2⟩, rfl⟩
          exact ⟨by omega, p, hp, by omega⟩
        · rintro ⟨hj, p, hp, he⟩
          exact ⟨p, ⟨hp, by omega, by omega⟩, by omega⟩
      · congr 1
        ext j
        simp))
  refine ⟨B, e, h.wid, represents_iff.2 (h.rep hg (fun i j hi hj => ?_))⟩
  rw [SRow.den_cut _ _ _ hj]
  exact hR.den _ _ (by omega) (by omega)

example : ∃ B, extractSubmatrix exA 1 0 2 2 = .ok B ∧ B.M = 2 ∧
    B.Represents 2 (fun i j => exa (1 + i) (0 + j)) :=
  C28_extract exA_rep (by decide) (by decide) (by decide) (by decide)

/-- `a` with the `n × n` block at `(irow, icol)` replaced by `b`. -/
def Spec.assign (n irow icol : Nat) (a b : Spec.Mat R) : Spec.Mat R := fun i j =>
  if (irow ≤ i ∧ i < irow + n) ∧ (icol ≤ j ∧ j < icol + n) then b (i - irow) (j - icol) else a i j

/-- **C28 (partial)**, `bml_assign_submatrix`: if nothing is stored inside the target block and the
rows have room, the block becomes `B` and everything else stays.  Missing: a populated target
block; there the claim is false, see `C28_assign_lost` and `C28_assign_populated_witness`. -/
theorem C28_assign_partial {N n irow icol : Nat} {A B : Ell R} {a b : Spec.Mat R}
    (hA : A.Represents N a) (hB : B.Represents n b) (hr : irow + n ≤ N) (hc : icol + n ≤ N)
    (hempty : ∀ i j, i < n → j < n → ¬ A.Stored (irow + i) (icol + j))
    (hroom : ∀ i, i < n → A.nnz.get (irow + i) + B.nnz.get i ≤ A.M) :
    ∃ A', assignSubmatrix A B irow icol = .ok A' ∧ A'.M = A.M ∧
      A'.Represents N (Spec.assign n irow icol a b) := by
  have hR := represents_iff.1 hA
  have hS := represents_iff.1 hB
  obtain ⟨A', e, h⟩ := Res.wp_exists (wp_assignSubmatrix (E := False) hR hS (icol := icol) hr hroom)
  refine ⟨A', e, h.wid, represents_iff.2 (h.rep (fun i hi => ?_) (fun i j hi hj => ?_))⟩
  · by_cases hb : irow ≤ i ∧ i < irow + n
    · rw [if_pos hb]
      have h1 := hR.good i hi
      have h2 := SRow.good_shift icol (hS.good (i - irow) (by omega))
      refine ⟨?_, ?_⟩
      · rw [List.map_append, List.nodup_append]
        refine ⟨h1.1, h2.1, ?_⟩
        intro x hx y hy hxy
        subst hxy
        simp only [SRow.shift, List.map_map, List.mem_map, Function.comp] at hy
        obtain ⟨q, hq, hqx⟩ := hy
        have hq2 := (hS.good (i - irow) (by omega)).2 q hq
        refine hempty (i - irow) q.1 (by omega) hq2 (stored_iff.2 ?_)
        have e1 : irow + (i - irow) = i := by omega
        rw [e1, Nat.add_comm, hqx]; exact hx
      · intro p hp
        rcases List.mem_append.1 hp with hp | hp
        · exact h1.2 p hp
        · have := h2.2 p hp
          omega
    · rw [if_neg hb, List.append_nil]; exact hR.good i hi
  · rw [SRow.den_append, hR.den i j hi hj]
    unfold Spec.assign
    by_cases hb : irow ≤ i ∧ i < irow + n
    · rw [if_pos hb, SRow.den_shift]
      by_cases hj1 : icol ≤ j
      · rw [if_pos hj1]
        by_cases hj2 : j < icol + n
        · rw [if_pos ⟨hb, hj1, hj2⟩, hS.den _ _ (by omega) (by omega)]
          have : a i j = 0 := by
            rw [← hR.den i j hi hj]
            refine SRow.den_of_not_mem fun hm => ?_
            refine hempty (i - irow) (j - icol) (by omega) (by omega) ?_
            rw [show irow + (i - irow) = i by omega, show icol + (j - icol) = j by omega]
            exact stored_iff.2 hm
          rw [this, zero_add]
        · rw [if_neg (fun h => hj2 h.2.2), SRow.den_of_not_mem, add_zero]
          intro hm
          obtain ⟨q, hq, hqx⟩ := List.mem_map.1 hm
          have := (hS.good (i - irow) (by omega)).2 q hq
          omega
      · rw [if_neg hj1, if_neg (fun h => hj1 h.2.1), add_zero]
    · rw [if_neg hb, if_neg (fun h => hb h.1), SRow.den_nil, add_zero]

/-- A `2 × 2` block. -/
def exBlk : Ell Int := ofRows 2 2 (fun i => if i = 0 then [(1, 8)] else [(0, 9), (1, 5)])

theorem exBlk_rep : exBlk.Represents 2
    (fun i j => SRow.den (if i = 0 then [(1, 8)] else [(0, 9), (1, 5)]) j) := ofRows_rep (by decide)

/-- A `4 × 4` matrix whose block at `(1,2)` is empty. -/
def exHole : Ell Int := ofRows 4 4 (fun i => [(i / 3, (i : Int) + 1)])

theorem exHole_rep : exHole.Represents 4 (fun i j => SRow.den [(i / 3, (i : Int) + 1)] j) :=
  ofRows_rep (by decide)

example : ∃ A', assignSubmatrix exHole exBlk 1 2 = .ok A' ∧ A'.M = 4 ∧
    A'.Represents 4 (Spec.assign 2 1 2 (fun i j => SRow.den [(i / 3, (i : Int) + 1)] j)
      (fun i j => SRow.den (if i = 0 then [(1, 8)] else [(0, 9), (1, 5)]) j)) :=
  C28_assign_partial exHole_rep exBlk_rep (by decide) (by decide)
    (fun i j hi hj => (by decide : ∀ i < 2, ∀ j < 2, ¬ exHole.Stored (1 + i) (2 + j)) i hi j hj)
    (by decide)

/-- **C28 fails** for a populated target block: every element of the block that was stored before
keeps its old value, whatever `B` holds. -/
theorem C28_assign_lost {N n irow icol : Nat} {A B : Ell R} {a b : Spec.Mat R}
    (hA : A.Represents N a) (hB : B.Represents n b) (hr : irow + n ≤ N)
    (hroom : ∀ i, i < n → A.nnz.get (irow + i) + B.nnz.get i ≤ A.M)
    {i j : Nat} (hi : i < N) (hj : j < N) (hst : A.Stored i j) :
    ∃ A', assignSubmatrix A B irow icol = .ok A' ∧ A'.getElement i j = .ok (a i j) := by
  have hR := represents_iff.1 hA
  have hS := represents_iff.1 hB
  obtain ⟨A', e, h⟩ := Res.wp_exists (wp_assignSubmatrix (E := False) hR hS (icol := icol) hr hroom)
  refine ⟨A', e, ?_⟩
  rw [getElement_find h.shape (by rw [h.dim]; exact hi) (by rw [h.dim]; exact hj)
    (by rw [h.wid]; exact h.le i hi), h.row i hi]
  exact congrArg Res.ok (find_prefix hR hi hj hst _)

example : ∃ A', assignSubmatrix exHole exBlk 1 0 = .ok A' ∧ A'.getElement 1 0 = .ok 2 :=
  C28_assign_lost exHole_rep exBlk_rep (by decide) (by decide) (by decide) (by decide) (by decide)

/-- **C28 fails**, concretely: assigning the block `(5)` over the stored element `7` leaves `7`. -/
theorem C28_assign_populated_witness :
    (do let A ← assignSubmatrix (ofRows 2 2 (fun _ => [(0, (7 : Int))]))
          (ofRows 1 1 (fun _ => [(0, 5)])) 1 0
        A.getElement 1 0) = .ok 7 := by decide

/-! ## C40 -/

/-- **C40 (partial)**, `bml_matrix2submatrix`, for every schedule: the leading block of the dense
target becomes `A` restricted to the index list; the rest of the target is unchanged.  Missing:
index lists with an empty row of `A`; there uninitialised memory is copied, see
`C40_matrix2submatrix_witness`. -/
theorem C40_matrix2submatrix_partial {N BN lsize : Nat} {A : Ell R} {a : Spec.Mat R}
    (hA : A.Represents N a) {D : Arr R} (hD : D.size = BN * BN) (hl : lsize ≤ BN) {chi : Arr Nat}
    (hchi : ∀ k, k < lsize → k < chi.size ∧ chi.get k < N)
    (hne : ∀ k, k < lsize → A.nnz.get (chi.get k) ≠ 0)
    {sc : Sched} (hsc : IsSched 0 lsize sc) (junk : Nat → Nat → R) :
    ∃ D', matrix2submatrix A D BN chi lsize sc junk = .ok D' ∧ D'.size = BN * BN ∧
      (∀ i j, i < lsize → j < lsize → D'.get (i * BN + j) = a (chi.get i) (chi.get j)) ∧
      ∀ i j, i < BN → j < BN → (lsize ≤ i ∨ lsize ≤ j) →
        D'.get (i * BN + j) = D.get (i * BN + j) := by
  obtain ⟨D', e, h⟩ := Res.wp_exists (wp_matrix2submatrix (E := False) (represents_iff.1 hA) hD hl
    hchi hne hsc junk)
  exact ⟨D', e, h⟩

/-- The index list 2, 0. -/
def exChi : Arr Nat := ⟨2, fun k => if k = 0 then 2 else 0⟩

/-- Two rows, out of order. -/
def exSched2 : Sched := [(1, 1), (0, 0)]

theorem exSched2_ok : IsSched 0 2 exSched2 := by unfold IsSched exSched2; decide

example : ∃ D', matrix2submatrix exA ⟨4, fun _ => 0⟩ 2 exChi 2 exSched2 (fun _ _ => 99) = .ok D' ∧
    D'.size = 4 ∧
    (∀ i j, i < 2 → j < 2 → D'.get (i * 2 + j) = exa (exChi.get i) (exChi.get j)) ∧
    ∀ i j, i < 2 → j < 2 → (2 ≤ i ∨ 2 ≤ j) → D'.get (i * 2 + j) = 0 :=
  C40_matrix2submatrix_partial exA_rep (by decide) (by decide) (by decide) (by decide) exSched2_ok _

/-- **C40 fails** for an empty row: element `(0,0)` of the result is whatever the freshly
allocated memory holds. -/
theorem C40_matrix2submatrix_witness (x : Int) :
    (do let D ← matrix2submatrix (zeroMatrix 1 1) ⟨1, fun _ => 0⟩ 1 ⟨1, fun _ => 0⟩ 1 [(0, 0)]
          (fun _ _ => x)
        D.read 0) = .ok x := rfl

/-- **C40 (partial)**, `bml_submatrix2matrix`, for every schedule and every duplicate-free index
list: the core rows get the elements of the dense block above the threshold at the listed columns
and nothing else; the other rows do not change.  Missing: blocks with more than `M` elements above
the threshold in a row (`C40_submatrix2matrix_overflow_witness`). -/
theorem C40_submatrix2matrix_partial {N AN lsize llsize : Nat} {D : Arr R} {d : Spec.Mat R}
    (hD : D.size = AN * AN) (hd : ∀ i j, i < AN → j < AN → D.get (i * AN + j) = d i j)
    (hl : lsize ≤ AN) (hll : llsize ≤ lsize) {chi : Arr Nat}
    (hchi : ∀ k, k < lsize → k < chi.size ∧ chi.get k < N)
    (hinj : ∀ k k', k < lsize → k' < lsize → chi.get k = chi.get k' → k = k') (big : R → Bool)
    {B : Ell R} {b : Spec.Mat R} (hB : B.Represents N b)
    (hfit : ∀ i, i < llsize → Spec.rowCount big lsize d i ≤ B.M)
    {sc : Sched} (hsc : IsSched 0 llsize sc) :
    ∃ B' b', submatrix2matrix D AN B chi lsize big sc = .ok B' ∧ B'.M = B.M ∧
      B'.Represents N b' ∧
      (∀ i j, i < llsize → j < lsize → b' (chi.get i) (chi.get j) = Spec.keep big (d i j)) ∧
      (∀ i c, i < llsize → c < N → (∀ j, j < lsize → chi.get j ≠ c) → b' (chi.get i) c = 0) ∧
      ∀ r c, r < N → c < N → (∀ i, i < llsize → chi.get i ≠ r) → b' r c = b r c := by
  have hR := represents_iff.1 hB
  have hD' : ∀ ja jb, ja < lsize → jb < lsize → D.get (ja * AN + jb) = d ja jb :=
    fun ja jb h1 h2 => hd ja jb (by omega) (by omega)
  obtain ⟨B', e, h1, h2, h3, h4, h5⟩ := Res.wp_exists (wp_submatrix2matrix (E := False) hD hl hll
    hchi hinj big hR (fun ja hja => by
      rw [subRow_length]
      refine le_trans (le_of_eq ?_) (hfit ja hja)
      unfold Spec.rowCount
      congr 1
      refine Finset.filter_congr fun j hj => ?_
      rw [hD' ja j (by omega) (by simpa using hj)]) hsc)
  have hcase : ∀ r, r < N → (∃ ja, ja < llsize ∧ chi.get ja = r ∧
        B'.RowSat r (fun L => L = subRow D AN chi big ja lsize)) ∨
      ((∀ ja, ja < llsize → chi.get ja ≠ r) ∧ B'.RowSat r (fun L => L = B.row r)) := by
    intro r hr
    by_cases hc : ∃ ja, ja < llsize ∧ chi.get ja = r
    · obtain ⟨ja, hja, rfl⟩ := hc
      exact Or.inl ⟨ja, hja, rfl, h4 ja hja⟩
    · have hc' : ∀ ja, ja < llsize → chi.get ja ≠ r := fun ja hja he => hc ⟨ja, hja, he⟩
      exact Or.inr ⟨hc', h5 r hr hc'⟩
  have hgood : ∀ ja, ja < llsize → SRow.Good N (subRow D AN chi big ja lsize) :=
    fun ja hja => good_subRow hchi hinj
  refine ⟨B', fun r c => (B'.row r).den c, e, h3, represents_iff.2 ⟨h1, h2, ?_, ?_, ?_⟩, ?_, ?_, ?_⟩
  · intro r hr
    rcases hcase r hr with ⟨_, _, _, g⟩ | ⟨_, g⟩ <;> exact g.1
  · intro r hr
    rcases hcase r hr with ⟨ja, hja, _, g⟩ | ⟨_, g⟩
    · rw [g.2]; exact hgood ja hja
    · rw [g.2]; exact hR.good r hr
  · intro i j _ _; rfl
  · intro i j hi hj
    show (B'.row _).den _ = _
    rw [(h4 i hi).2, den_subRow_mem hchi hinj hj, hD' i j (by omega) hj]
  · intro i c hi hc hno
    show (B'.row _).den _ = _
    rw [(h4 i hi).2, den_subRow_not hno]
  · intro r c hr hc hno
    show (B'.row _).den _ = _
    rw [(h5 r hr hno).2, hR.den r c hr hc]

example : ∃ B' b', submatrix2matrix ⟨4, fun k => (k : Int)⟩ 2 exA exChi 2 exBig [(0, 0)] = .ok B' ∧
    B'.M = 4 ∧ B'.Represents 3 b' ∧
    (∀ i j, i < 1 → j < 2 → b' (exChi.get i) (exChi.get j) =
      Spec.keep exBig ((i * 2 + j : Nat) : Int)) ∧
    (∀ i c, i < 1 → c < 3 → (∀ j, j < 2 → exChi.get j ≠ c) → b' (exChi.get i) c = 0) ∧
    ∀ r c, r < 3 → c < 3 → (∀ i, i < 1 → exChi.get i ≠ r) → b' r c = exa r c :=
  C40_submatrix2matrix_partial (d := fun i j => ((i * 2 + j : Nat) : Int)) (by decide)
    (fun _ _ _ _ => rfl) (by decide) (by decide) (by decide)
    (fun k k' h h' => (by decide : ∀ k < 2, ∀ k' < 2, exChi.get k = exChi.get k' → k = k') k h k' h')
    exBig exA_rep (by decide)
    (by unfold IsSched; decide)

/-- **C40**: the bound on the block rows is needed: the check `icol > M` comes after the entries
have been written, here behind the end of the arrays of a `2 × 2` matrix with `M = 1`. -/
theorem C40_submatrix2matrix_overflow_witness :
    submatrix2matrix ⟨4, fun _ => (1 : Int)⟩ 2 (zeroMatrix 2 1) ⟨2, fun k => 1 - k⟩ 2
      (fun _ => true) [(0, 0), (0, 1)] = .ub := rfl

end Bml.Props
