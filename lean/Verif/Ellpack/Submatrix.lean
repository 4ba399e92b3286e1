import Verif.Ellpack.Rows
import Verif.Ellpack.Reduce
import Verif.Ellpack.Construct

/-!
# ELLPACK: blocks and core-halo submatrices
-/

set_option linter.unusedSectionVars false

namespace Bml

namespace SRow

variable {R : Type} [AddCommMonoid R]

/-- The part of a row in the columns `c0 ≤ j < c0 + n`, shifted to the left. -/
def cut (c0 n : Nat) (L : SRow R) : SRow R :=
  (L.filter (fun p => decide (c0 ≤ p.1 ∧ p.1 < c0 + n))).map (fun p => (p.1 - c0, p.2))

/-- A row shifted to the right. -/
def shift (c0 : Nat) (L : SRow R) : SRow R := L.map (fun p => (p.1 + c0, p.2))

theorem den_cut (c0 n : Nat) (L : SRow R) {j : Nat} (hj : j < n) :
    den (cut c0 n L) j = den L (c0 + j) := by
  induction L with
  | nil => rfl
  | cons p L ih =>
    unfold cut at ih ⊢
    by_cases hp : c0 ≤ p.1 ∧ p.1 < c0 + n
    · rw [List.filter_cons_of_pos (by simpa using hp), List.map_cons, den_cons, den_cons, ih]
      congr 1
      have : p.1 - c0 = j ↔ p.1 = c0 + j := by omega
      simp only [this]
    · rw [List.filter_cons_of_neg (by simpa using hp), ih, den_cons, if_neg, zero_add]
      intro he
      exact hp ⟨by omega, by omega⟩

theorem good_cut {N : Nat} (c0 n : Nat) {L : SRow R} (h : Good N L) : Good n (cut c0 n L) := by
  unfold cut
  refine ⟨?_, ?_⟩
  · rw [List.map_map]
    have hn : ((L.filter (fun p => decide (c0 ≤ p.1 ∧ p.1 < c0 + n))).map Prod.fst).Nodup :=
      (h.sublist List.filter_sublist).1
    have : (L.filter (fun p => decide (c0 ≤ p.1 ∧ p.1 < c0 + n))).map
        (Prod.fst ∘ fun p => (p.1 - c0, p.2)) =
        ((L.filter (fun p => decide (c0 ≤ p.1 ∧ p.1 < c0 + n))).map Prod.fst).map (· - c0) := by
      rw [List.map_map]; rfl
    rw [this]
    refine List.Nodup.map_on ?_ hn
    intro x hx y hy hxy
    obtain ⟨p, hp, rfl⟩ := List.mem_map.1 hx
    obtain ⟨q, hq, rfl⟩ := List.mem_map.1 hy
    have h1 := (List.mem_filter.1 hp).2
    have h2 := (List.mem_filter.1 hq).2
    simp only [decide_eq_true_eq] at h1 h2
    omega
  · intro p hp
    obtain ⟨q, hq, rfl⟩ := List.mem_map.1 hp
    have h1 := (List.mem_filter.1 hq).2
    simp only [decide_eq_true_eq] at h1
    simp only
    omega

theorem den_shift (c0 : Nat) (L : SRow R) (j : Nat) :
    den (shift c0 L) j = if c0 ≤ j then den L (j - c0) else 0 := by
  induction L with
  | nil => simp [shift]
  | cons p L ih =>
    unfold shift at ih ⊢
    rw [List.map_cons, den_cons, ih]
    by_cases hj : c0 ≤ j
    · rw [if_pos hj, if_pos hj, den_cons]
      congr 1
      have : p.1 + c0 = j ↔ p.1 = j - c0 := by omega
      simp only [this]
    · rw [if_neg hj, if_neg hj, if_neg (by omega), add_zero]

theorem good_shift {n : Nat} (c0 : Nat) {L : SRow R} (h : Good n L) :
    Good (n + c0) (shift c0 L) := by
  unfold shift
  refine ⟨?_, ?_⟩
  · rw [List.map_map]
    have : L.map (Prod.fst ∘ fun p => (p.1 + c0, p.2)) = (L.map Prod.fst).map (· + c0) := by
      rw [List.map_map]; rfl
    rw [this]
    exact List.Nodup.map (fun a b hab => by simpa using hab) h.1
  · intro p hp
    obtain ⟨q, hq, rfl⟩ := List.mem_map.1 hp
    have := h.2 q hq
    simp only; omega

end SRow

namespace Ell

variable {R : Type} [CommRing R] {E : Prop}

theorem Rows.app_run {B : Ell R} {N M : Nat} {Lf : Nat → SRow R} (h : Rows B N M Lf) {r : Nat}
    (hr : r < N) (hc : (Lf r).length < M) (c : Nat) (v : R) :
    (do let B ← B.putEntry r (Lf r).length c v
        B.setNnz r ((Lf r).length + 1)) = .ok (B.app r c v) := by
  rw [putEntry_eq h.shape _ _ (by rw [h.dim]; exact hr) (by rw [h.wid]; exact hc), Res.bind_ok,
    setNnz_eq (h.shape.put _ _ _ _) _ (by show r < B.N; rw [h.dim]; exact hr)]
  unfold Ell.app
  rw [h.nnz hr]

theorem Rows.rep {A : Ell R} {N M : Nat} {Lf : Nat → SRow R} (h : Rows A N M Lf) {a : Spec.Mat R}
    (hg : ∀ i, i < N → SRow.Good N (Lf i)) (hd : ∀ i j, i < N → j < N → (Lf i).den j = a i j) :
    A.Rep N a :=
  ⟨h.shape, h.dim, fun i hi => by rw [h.wid]; exact h.le i hi,
    fun i hi => by rw [h.row i hi]; exact hg i hi,
    fun i j hi hj => by rw [h.row i hi]; exact hd i j hi hj⟩

theorem take_succ_row {A : Ell R} {i k : Nat} (hk : k < A.nnz.get i) :
    (A.row i).take (k + 1) = (A.row i).take k ++
      [(A.idx.get (i * A.M + k), A.val.get (i * A.M + k))] := by
  have h1 : (A.row i).take (k + 1) = A.rowPre i (k + 1) := (rowPre_take A i _ _ (by omega)).symm
  have h2 : (A.row i).take k = A.rowPre i k := (rowPre_take A i _ _ (by omega)).symm
  rw [h1, h2, rowPre_succ]

theorem cut_append (c0 n : Nat) (L L' : SRow R) :
    SRow.cut c0 n (L ++ L') = SRow.cut c0 n L ++ SRow.cut c0 n L' := by
  simp [SRow.cut]

theorem cut_take_length_le (c0 n k : Nat) (L : SRow R) :
    (SRow.cut c0 n (L.take k)).length ≤ (SRow.cut c0 n L).length := by
  conv_rhs => rw [← List.take_append_drop k L]
  rw [cut_append, List.length_append]; omega

theorem wp_extractRow {N BN BM irow icol : Nat} {A : Ell R} {a : Spec.Mat R} (hA : A.Rep N a)
    {iB : Nat} (hiB : iB < BN) (hrow : irow + iB < N) {B : Ell R} {Lf : Nat → SRow R}
    (hB : Rows B BN BM Lf) (he : Lf iB = [])
    (hfit : (SRow.cut icol BN (A.row (irow + iB))).length ≤ BM) :
    (extractRow A irow icol BN iB B).wp E (fun B' =>
      Rows B' BN BM (upd Lf iB (SRow.cut icol BN (A.row (irow + iB))))) := by
  have hd := hA.dim
  have hle := hA.le _ hrow
  unfold extractRow
  rw [read_nnz hA.shape (by omega), Res.bind_ok]
  refine wp_loop' (fun k B' => Rows B' BN BM
    (upd Lf iB (SRow.cut icol BN ((A.row (irow + iB)).take k)))) ?_ ?_ ?_
  · refine hB.congr (fun r hr => ?_)
    by_cases h : r = iB
    · subst h; rw [upd_same, he]; rfl
    · rw [upd_ne _ _ h]
  · intro k hk B' hB'
    rw [read_idx hA.shape (by omega) (by omega), Res.bind_ok]
    have htake := take_succ_row hk
    have hlen := cut_take_length_le icol BN (k + 1) (A.row (irow + iB))
    rw [htake, cut_append] at hlen
    rw [htake]
    by_cases hc : icol ≤ A.idx.get ((irow + iB) * A.M + k) ∧
        A.idx.get ((irow + iB) * A.M + k) < icol + BN
    · have hone : SRow.cut icol BN [(A.idx.get ((irow + iB) * A.M + k),
          A.val.get ((irow + iB) * A.M + k))] =
          [(A.idx.get ((irow + iB) * A.M + k) - icol, A.val.get ((irow + iB) * A.M + k))] := by
        unfold SRow.cut
        rw [List.filter_cons_of_pos (by simpa using hc)]
        rfl
      rw [hone, List.length_append] at hlen
      simp only [List.length_cons, List.length_nil] at hlen
      rw [if_pos hc, hB'.read_nnz hiB, Res.bind_ok,
        read_val hA.shape (by omega) (by omega), Res.bind_ok,
        hB'.app_run hiB (by rw [upd_same]; omega), Res.wp_ok]
      refine (hB'.app hiB (by rw [upd_same]; omega) _ _).congr (fun r hr => ?_)
      by_cases h : r = iB
      · subst h; simp only [upd_same]; rw [cut_append, hone]
      · simp only [upd_ne _ _ h]
    · have hone : SRow.cut icol BN [(A.idx.get ((irow + iB) * A.M + k),
          A.val.get ((irow + iB) * A.M + k))] = [] := by
        unfold SRow.cut
        rw [List.filter_cons_of_neg (by simpa using hc)]
        rfl
      rw [if_neg hc, Res.pure_eq, Res.wp_ok, cut_append, hone, List.append_nil]
      exact hB'
  · intro B' hB'
    have : (A.row (irow + iB)).take (A.nnz.get (irow + iB)) = A.row (irow + iB) :=
      List.take_of_length_le (by rw [row_length])
    rw [this] at hB'
    exact hB'

theorem zero_rows (N M : Nat) : Rows (zeroMatrix N M : Ell R) N M (fun _ => []) :=
  ⟨shape_zeroMatrix N M, rfl, rfl, fun _ _ => Nat.zero_le _, fun _ _ => rfl⟩

/-- `bml_extract_submatrix`. -/
theorem wp_extractSubmatrix {N BN BM irow icol : Nat} {A : Ell R} {a : Spec.Mat R}
    (hA : A.Rep N a) (hBM : BM > 0) (hr : irow + BN ≤ N)
    (hfit : ∀ i, i < BN → (SRow.cut icol BN (A.row (irow + i))).length ≤ BM) :
    (extractSubmatrix A irow icol BN BM).wp E (fun B =>
      Rows B BN BM (fun i => SRow.cut icol BN (A.row (irow + i)))) := by
  unfold extractSubmatrix
  have : (newZero BN BM : Res (Ell R)) = .ok (zeroMatrix BN BM) := by simp [newZero, hBM]
  rw [this, Res.bind_ok]
  refine wp_loop' (fun n B => Rows B BN BM
    (fun i => if i < n then SRow.cut icol BN (A.row (irow + i)) else [])) ?_ ?_ ?_
  · exact (zero_rows BN BM).congr (fun r _ => by simp)
  · intro n hn B hB
    refine Res.wp_mono (wp_extractRow hA hn (by omega) hB (by simp) (hfit n hn)) ?_
    intro B' hB'
    refine hB'.congr (fun r _ => ?_)
    by_cases h : r = n
    · subst h; rw [upd_same, if_pos (by omega)]
    · rw [upd_ne _ _ h]
      by_cases h2 : r < n
      · rw [if_pos h2, if_pos (by omega)]
      · rw [if_neg h2, if_neg (by omega)]
  · intro B hB
    exact hB.congr (fun r hr => by rw [if_pos hr])

theorem shift_append (c0 : Nat) (L L' : SRow R) :
    SRow.shift c0 (L ++ L') = SRow.shift c0 L ++ SRow.shift c0 L' := by
  simp [SRow.shift]

/-- `bml_assign_submatrix`: what it does to the rows. -/
theorem wp_assignSubmatrix {N BN irow icol : Nat} {A B : Ell R} {a b : Spec.Mat R}
    (hA : A.Rep N a) (hB : B.Rep BN b) (hr : irow + BN ≤ N)
    (hfit : ∀ i, i < BN → A.nnz.get (irow + i) + B.nnz.get i ≤ A.M) :
    (assignSubmatrix A B irow icol).wp E (fun A' => Rows A' N A.M (fun r =>
      A.row r ++ if irow ≤ r ∧ r < irow + BN then SRow.shift icol (B.row (r - irow)) else [])) := by
  have hdB := hB.dim
  unfold assignSubmatrix
  refine wp_loop' (fun n A' => Rows A' N A.M (fun r =>
      A.row r ++ if irow ≤ r ∧ r < irow + n then SRow.shift icol (B.row (r - irow)) else []))
    ?_ ?_ ?_
  · have h0 : Rows A N A.M A.row := ⟨hA.shape, hA.dim, rfl, hA.le, fun _ _ => rfl⟩
    exact h0.congr (fun r _ => by rw [if_neg (by omega)]; simp)
  · intro i hi A1 hA1
    have hiB : i < BN := by omega
    have hrN : i + irow < N := by omega
    have hleB := hB.le i hiB
    have hcap := hfit i hiB
    rw [read_nnz hB.shape hi, Res.bind_ok]
    refine wp_loop' (fun k A2 => Rows A2 N A.M (upd (fun r =>
        A.row r ++ if irow ≤ r ∧ r < irow + i then SRow.shift icol (B.row (r - irow)) else [])
        (i + irow) (A.row (i + irow) ++ SRow.shift icol ((B.row i).take k)))) ?_ ?_ ?_
    · refine hA1.congr (fun r _ => ?_)
      by_cases h : r = i + irow
      · subst h; rw [upd_same, if_neg (by omega)]; simp [SRow.shift]
      · rw [upd_ne _ _ h]
    · intro k hk A2 hA2
      have htake := take_succ_row (A := B) hk
      have hlt : (A.row (i + irow) ++ SRow.shift icol ((B.row i).take k)).length < A.M := by
        simp only [List.length_append, row_length, SRow.shift, List.length_map, List.length_take]
        rw [Nat.add_comm i irow, Nat.min_eq_left (by omega)]
        omega
      rw [read_idx hB.shape (by omega) (by omega), Res.bind_ok, hA2.read_nnz hrN, Res.bind_ok,
        read_val hB.shape (by omega) (by omega), Res.bind_ok,
        hA2.app_run hrN (by rw [upd_same]; exact hlt), Res.wp_ok]
      refine (hA2.app hrN (by rw [upd_same]; exact hlt) _ _).congr (fun r hr => ?_)
      by_cases h : r = i + irow
      · subst h; simp only [upd_same]; rw [htake, shift_append, List.append_assoc]; rfl
      · simp only [upd_ne _ _ h]
    · intro A2 hA2
      have : (B.row i).take (B.nnz.get i) = B.row i := List.take_of_length_le (by rw [row_length])
      rw [this] at hA2
      refine hA2.congr (fun r _ => ?_)
      by_cases h : r = i + irow
      · subst h
        rw [upd_same, if_pos ⟨by omega, by omega⟩]
        congr 2
        congr 1
        omega
      · rw [upd_ne _ _ h]
        congr 1
        by_cases h2 : irow ≤ r ∧ r < irow + i
        · rw [if_pos h2, if_pos ⟨h2.1, by omega⟩]
        · rw [if_neg h2, if_neg (by omega)]
  · intro A' hA'
    rw [hdB] at hA'
    exact hA'

/-! ## Core-halo submatrices -/

theorem wp_matrix2submatrix {N BN lsize : Nat} {A : Ell R} {a : Spec.Mat R} (hA : A.Rep N a)
    {D : Arr R} (hD : D.size = BN * BN) (hl : lsize ≤ BN) {chi : Arr Nat}
    (hchi : ∀ k, k < lsize → k < chi.size ∧ chi.get k < N)
    (hne : ∀ k, k < lsize → A.nnz.get (chi.get k) ≠ 0)
    {sc : Sched} (hsc : IsSched 0 lsize sc) (junk : Nat → Nat → R) :
    (matrix2submatrix A D BN chi lsize sc junk).wp E (fun D' => D'.size = BN * BN ∧
      (∀ i j, i < lsize → j < lsize → D'.get (i * BN + j) = a (chi.get i) (chi.get j)) ∧
      ∀ i j, i < BN → j < BN → (lsize ≤ i ∨ lsize ≤ j) →
        D'.get (i * BN + j) = D.get (i * BN + j)) := by
  unfold matrix2submatrix
  refine Res.wp_mono (wp_rows hsc (G := fun D' => D'.size = BN * BN ∧
      ∀ i j, i < BN → j < BN → (lsize ≤ i ∨ lsize ≤ j) →
        D'.get (i * BN + j) = D.get (i * BN + j))
    (P := fun _ _ => True)
    (Q := fun i D' => ∀ j, j < lsize → D'.get (i * BN + j) = a (chi.get i) (chi.get j))
    ⟨hD, fun _ _ _ _ _ => rfl⟩ (fun _ _ _ => trivial) ?_) ?_
  · rintro t i D1 - hi ⟨hs, hfr⟩ -
    simp only
    rw [Arr.read_ok (hchi i hi).1, Res.bind_ok, Res.wp_bind]
    refine Res.wp_mono (wp_getVector hA (hchi i hi).2 (hne i hi)
      (jj := chi) (off := 0) (cnt := lsize) (fun k hk => by
        rw [Nat.zero_add]; exact hchi k hk) (junk i)) ?_
    rintro rv ⟨hrs, hrv⟩
    refine wp_loop' (fun n D2 => D2.size = BN * BN ∧
      (∀ j, j < n → D2.get (i * BN + j) = a (chi.get i) (chi.get j)) ∧
      ∀ q, (∀ j, j < lsize → q ≠ i * BN + j) → D2.get q = D1.get q)
      ⟨hs, fun j hj => by omega, fun _ _ => rfl⟩ ?_ ?_
    · rintro n hn D2 ⟨k1, k2, k3⟩
      rw [Arr.read_ok (by omega), Res.bind_ok, Arr.wp_write]
      have hlt : ROWMAJOR i n BN BN < D2.size := by
        rw [k1]; exact addr_lt (by omega) (by omega)
      refine ⟨hlt, k1, fun j hj => ?_, fun q hq => ?_⟩
      · simp only [ROWMAJOR]
        by_cases hjn : j = n
        · subst hjn
          rw [upd_same, hrv j hn, Nat.zero_add]
        · rw [upd_ne _ _ (by omega)]
          exact k2 j (by omega)
      · simp only [ROWMAJOR]
        rw [upd_ne _ _ (hq n hn)]
        exact k3 q hq
    · rintro D2 ⟨k1, k2, k3⟩
      have hout : ∀ i' j', i' ≠ i → j' < BN → ∀ j, j < lsize → i' * BN + j' ≠ i * BN + j := by
        intro i' j' hne' hj' j hj he
        exact hne' (addr_inj hj' (by omega) he).1
      refine ⟨⟨k1, fun i' j' hi' hj' hor => ?_⟩, k2, fun i' _ hi' hne' => ⟨fun h => h, fun h => ?_⟩⟩
      · rw [k3 _ ?_, hfr i' j' hi' hj' hor]
        intro j hj he
        obtain ⟨e1, e2⟩ := addr_inj hj' (by omega) he
        omega
      · intro j hj
        rw [k3 _ (hout i' j hne' (by omega))]
        exact h j hj
  · rintro D' ⟨⟨h1, h2⟩, h3⟩
    exact ⟨h1, fun i j hi hj => h3 i (Nat.zero_le i) hi j hj, h2⟩

/-- The kept elements of row `ja` of the dense block, at their global columns. -/
def subRow (D : Arr R) (AN : Nat) (chi : Arr Nat) (big : R → Bool) (ja n : Nat) : SRow R :=
  ((List.range n).filter (fun jb => big (D.get (ja * AN + jb)))).map
    (fun jb => (chi.get jb, D.get (ja * AN + jb)))

theorem subRow_succ (D : Arr R) (AN : Nat) (chi : Arr Nat) (big : R → Bool) (ja n : Nat) :
    subRow D AN chi big ja (n + 1) = subRow D AN chi big ja n ++
      if big (D.get (ja * AN + n)) then [(chi.get n, D.get (ja * AN + n))] else [] := by
  unfold subRow
  rw [List.range_succ, List.filter_append, List.map_append]
  congr 1
  cases h : big (D.get (ja * AN + n)) <;> simp [h]

theorem subRow_length_le (D : Arr R) (AN : Nat) (chi : Arr Nat) (big : R → Bool) (ja : Nat)
    {n m : Nat} (h : n ≤ m) :
    (subRow D AN chi big ja n).length ≤ (subRow D AN chi big ja m).length := by
  induction m with
  | zero => have : n = 0 := by omega
            subst this; exact le_refl _
  | succ m ih =>
    by_cases hn : n = m + 1
    · subst hn; exact le_refl _
    · rw [subRow_succ, List.length_append]
      have := ih (by omega)
      omega

theorem subRow_length (D : Arr R) (AN : Nat) (chi : Arr Nat) (big : R → Bool) (ja n : Nat) :
    (subRow D AN chi big ja n).length =
      ((Finset.range n).filter (fun jb => big (D.get (ja * AN + jb)) = true)).card := by
  unfold subRow
  rw [List.length_map]
  exact SRow.length_eq_card (List.nodup_range.filter _) (fun jb => big (D.get (ja * AN + jb)))
    (fun j => by simp)

theorem wp_sub2matRow {N AN lsize : Nat} {D : Arr R} (hD : D.size = AN * AN) (hl : lsize ≤ AN)
    {chi : Arr Nat} (hchi : ∀ k, k < lsize → k < chi.size ∧ chi.get k < N) (big : R → Bool)
    {ja : Nat} (hja : ja < lsize) {B : Ell R} (hS : B.Shape) (hN : B.N = N)
    (hfit : (subRow D AN chi big ja lsize).length ≤ B.M) :
    (sub2matRow D AN chi lsize big ja B).wp E (fun B' => B'.Shape ∧ Frame B B' (chi.get ja) ∧
      B'.RowSat (chi.get ja) (fun L => L = subRow D AN chi big ja lsize)) := by
  have hii := (hchi ja hja).2
  unfold sub2matRow
  rw [Arr.read_ok (hchi ja hja).1, Res.bind_ok, Res.wp_bind]
  refine wp_loop' (fun n (st : Ell R × Nat) => st.1.Shape ∧ Frame B st.1 (chi.get ja) ∧
    st.2 = (subRow D AN chi big ja n).length ∧
    st.1.rowPre (chi.get ja) st.2 = subRow D AN chi big ja n)
    ⟨hS, ⟨rfl, rfl, fun _ _ => rfl, fun _ _ _ _ => rfl⟩, rfl, rfl⟩ ?_ ?_
  · rintro n hn ⟨B1, ic⟩ ⟨g1, g2, g3, g4⟩
    simp only at g1 g2 g3 g4
    have hlen := subRow_length_le D AN chi big ja (n := n + 1) (m := lsize) (by omega)
    rw [subRow_succ, List.length_append] at hlen
    have hlt : ROWMAJOR ja n AN AN < D.size := by
      rw [hD]; exact addr_lt (by omega) (by omega)
    rw [Arr.read_ok hlt, Res.bind_ok, subRow_succ]
    by_cases hb : big (D.get (ja * AN + n)) = true
    · rw [hb] at hlen
      simp only [if_true, List.length_cons, List.length_nil] at hlen
      have hicM : ic < B1.M := by rw [g2.M]; omega
      rw [if_pos (show big (D.get (ROWMAJOR ja n AN AN)) = true from hb), Arr.read_ok (hchi n hn).1, Res.bind_ok,
        putEntry_eq g1 _ _ (by rw [g2.N, hN]; exact hii) hicM, Res.bind_ok, Res.pure_eq, Res.wp_ok]
      refine ⟨g1.put _ _ _ _, g2.trans (frame_put _ _ _ hicM), ?_, ?_⟩
      · simp [hb, g3]
      · simp only
        rw [put_rowPre_succ B1 hicM, g4, if_pos hb]
        rfl
    · rw [if_neg (show ¬ big (D.get (ROWMAJOR ja n AN AN)) = true from hb), Res.pure_eq, Res.wp_ok,
        if_neg hb, List.append_nil]
      exact ⟨g1, g2, g3, g4⟩
  · rintro ⟨B1, ic⟩ ⟨g1, g2, g3, g4⟩
    simp only at g1 g2 g3 g4 ⊢
    rw [if_neg (by rw [g2.M]; omega), setNnz_eq g1 _ (by rw [g2.N, hN]; exact hii), Res.wp_ok]
    refine ⟨g1.withNnz _ _, g2.trans (frame_withNnz _ _ _), ?_, ?_⟩
    · simp only [withNnz_nnz, upd_same, withNnz_M]
      rw [g2.M]; omega
    · rw [withNnz_row_same, g4]

theorem wp_submatrix2matrix {N AN lsize llsize : Nat} {D : Arr R} (hD : D.size = AN * AN)
    (hl : lsize ≤ AN) (hll : llsize ≤ lsize) {chi : Arr Nat}
    (hchi : ∀ k, k < lsize → k < chi.size ∧ chi.get k < N)
    (hinj : ∀ k k', k < lsize → k' < lsize → chi.get k = chi.get k' → k = k') (big : R → Bool)
    {B : Ell R} {b : Spec.Mat R} (hB : B.Rep N b)
    (hfit : ∀ ja, ja < llsize → (subRow D AN chi big ja lsize).length ≤ B.M)
    {sc : Sched} (hsc : IsSched 0 llsize sc) :
    (submatrix2matrix D AN B chi lsize big sc).wp E (fun B' => B'.Shape ∧ B'.N = N ∧ B'.M = B.M ∧
      (∀ ja, ja < llsize → B'.RowSat (chi.get ja) (fun L => L = subRow D AN chi big ja lsize)) ∧
      ∀ r, r < N → (∀ ja, ja < llsize → chi.get ja ≠ r) →
        B'.RowSat r (fun L => L = B.row r)) := by
  unfold submatrix2matrix
  refine Res.wp_mono (wp_rows hsc
    (G := fun B' => B'.Shape ∧ B'.N = N ∧ B'.M = B.M ∧
      ∀ r, r < N → (∀ ja, ja < llsize → chi.get ja ≠ r) → B'.RowSat r (fun L => L = B.row r))
    (P := fun _ _ => True)
    (Q := fun ja B' => B'.RowSat (chi.get ja) (fun L => L = subRow D AN chi big ja lsize))
    ⟨hB.shape, hB.dim, rfl, fun r hr _ => hB.rowSelf hr⟩ (fun _ _ _ => trivial) ?_) ?_
  · rintro t ja B1 - hja ⟨g1, g2, g3, g4⟩ -
    refine Res.wp_mono (wp_sub2matRow hD hl hchi big (by omega : ja < lsize) g1 g2
      (by rw [g3]; exact hfit ja hja)) ?_
    rintro B2 ⟨k1, k2, k3⟩
    refine ⟨⟨k1, by rw [k2.N, g2], by rw [k2.M, g3], fun r hr hno => ?_⟩, k3, ?_⟩
    · exact k2.rowSat (Ne.symm (hno ja hja)) (g4 r hr hno)
    · intro ja' _ hja' hne
      exact ⟨fun h => h, fun h => k2.rowSat (fun he =>
        hne (hinj _ _ (by omega) (by omega) he)) h⟩
  · rintro B' ⟨⟨g1, g2, g3, g4⟩, hQ⟩
    exact ⟨g1, g2, g3, fun ja hja => hQ ja (Nat.zero_le _) hja, g4⟩

theorem getElement_find {A : Ell R} (hs : A.Shape) {i j : Nat} (hi : i < A.N) (hj : j < A.N)
    (hle : A.nnz.get i ≤ A.M) :
    A.getElement i j = .ok (((A.row i).find? (fun q => decide (q.1 = j))).elim 0 Prod.snd) := by
  unfold getElement
  rw [if_neg (by omega), if_neg (by omega)]
  simp only [Int.toNat_natCast]
  rw [read_nnz hs hi, Res.bind_ok, findFrom_eq hs hi _ 0 (by omega)]
  simp only [Nat.zero_add, List.drop_zero]
  rfl

theorem find_prefix {N : Nat} {A : Ell R} {a : Spec.Mat R} (hA : A.Rep N a) {i j : Nat}
    (hi : i < N) (hj : j < N) (hst : A.Stored i j) (L : SRow R) :
    (((A.row i) ++ L).find? (fun q => decide (q.1 = j))).elim 0 Prod.snd = a i j := by
  rw [← hA.den i j hi hj, ← find_den (hA.good i hi) j, List.find?_append]
  obtain ⟨p, hp, he⟩ := List.mem_map.1 (stored_iff.1 hst)
  cases h : (A.row i).find? (fun q => decide (q.1 = j)) with
  | some q => rfl
  | none =>
    have := List.find?_eq_none.1 h p hp
    simp [he] at this

omit [CommRing R] in
theorem good_subRow {N AN lsize : Nat} {D : Arr R} {chi : Arr Nat}
    (hchi : ∀ k, k < lsize → k < chi.size ∧ chi.get k < N)
    (hinj : ∀ k k', k < lsize → k' < lsize → chi.get k = chi.get k' → k = k') {big : R → Bool}
    {ja : Nat} : SRow.Good N (subRow D AN chi big ja lsize) := by
  refine ⟨?_, ?_⟩
  · unfold subRow
    rw [List.map_map]
    refine List.Nodup.map_on ?_ (List.nodup_range.filter _)
    intro x hx y hy hxy
    simp only [List.mem_filter, List.mem_range] at hx hy
    exact hinj x y hx.1 hy.1 hxy
  · intro p hp
    unfold subRow at hp
    obtain ⟨jb, hjb, rfl⟩ := List.mem_map.1 hp
    simp only [List.mem_filter, List.mem_range] at hjb
    exact (hchi jb hjb.1).2

theorem den_subRow_mem {N AN lsize : Nat} {D : Arr R} {chi : Arr Nat}
    (hchi : ∀ k, k < lsize → k < chi.size ∧ chi.get k < N)
    (hinj : ∀ k k', k < lsize → k' < lsize → chi.get k = chi.get k' → k = k') {big : R → Bool}
    {ja j : Nat} (hj : j < lsize) :
    (subRow D AN chi big ja lsize).den (chi.get j) = Spec.keep big (D.get (ja * AN + j)) := by
  unfold Spec.keep
  by_cases hb : big (D.get (ja * AN + j)) = true
  · rw [if_pos hb]
    refine SRow.den_of_mem (good_subRow hchi hinj).1 ?_
    unfold subRow
    exact List.mem_map.2 ⟨j, by simp [hj, hb], rfl⟩
  · rw [if_neg hb]
    refine SRow.den_of_not_mem ?_
    intro hm
    unfold subRow at hm
    rw [List.map_map] at hm
    obtain ⟨k, hk, he⟩ := List.mem_map.1 hm
    simp only [List.mem_filter, List.mem_range] at hk
    have := hinj k j hk.1 hj he
    subst this
    exact hb hk.2

theorem den_subRow_not {AN lsize : Nat} {D : Arr R} {chi : Arr Nat} {big : R → Bool}
    {ja c : Nat} (hno : ∀ j, j < lsize → chi.get j ≠ c) :
    (subRow D AN chi big ja lsize).den c = 0 := by
  refine SRow.den_of_not_mem ?_
  intro hm
  unfold subRow at hm
  rw [List.map_map] at hm
  obtain ⟨k, hk, he⟩ := List.mem_map.1 hm
  simp only [List.mem_filter, List.mem_range] at hk
  exact hno k hk.1 he

end Ell

end Bml
