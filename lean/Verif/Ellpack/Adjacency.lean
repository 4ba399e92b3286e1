import Verif.Ellpack.Halo
import Verif.Ellpack.Submatrix
import Verif.Ellpack.Model5

/-!
# ELLPACK: adjacency lists

`bml_submatrix_ellpack.c` lines 338-512.
-/

namespace Bml

/-- The cells of `a` from `lo` on hold the list `L`. -/
def SegAt (a : Arr Nat) (lo : Nat) (L : List Nat) : Prop :=
  ∀ (p : Nat) (h : p < L.length), a.get (lo + p) = L[p]

theorem SegAt.congr {a a' : Arr Nat} {lo : Nat} {L : List Nat} (h : SegAt a lo L)
    (he : ∀ k, lo ≤ k → k < lo + L.length → a'.get k = a.get k) : SegAt a' lo L := by
  intro p hp
  rw [he _ (by omega) (by omega)]
  exact h p hp

/-- The start of segment `i` when segment `r` has `len r` cells. -/
def segStart (len : Nat → Nat) : Nat → Nat
  | 0 => 0
  | i + 1 => segStart len i + len i

theorem segStart_mono (len : Nat → Nat) {i k : Nat} (h : i ≤ k) : segStart len i ≤ segStart len k := by
  induction k with
  | zero => have : i = 0 := by omega
            subst this; exact le_refl _
  | succ k ih =>
    by_cases he : i = k + 1
    · subst he; exact le_refl _
    · exact le_trans (ih (by omega)) (Nat.le_add_right _ _)

theorem segStart_disjoint (len : Nat → Nat) {i j k : Nat} (h1 : segStart len i ≤ k)
    (h2 : k < segStart len i + len i) (h3 : segStart len j ≤ k) (h4 : k < segStart len j + len j) :
    i = j := by
  rcases Nat.lt_trichotomy i j with h | h | h
  · have := segStart_mono len (show i + 1 ≤ j by omega)
    simp only [segStart] at this; omega
  · exact h
  · have := segStart_mono len (show j + 1 ≤ i by omega)
    simp only [segStart] at this; omega

variable {E : Prop}

/-- Steps that only touch their own segment, under any schedule. -/
theorem wp_segs {n sz : Nat} {sc : Sched} (hsc : IsSched 0 n sc) (len : Nat → Nat)
    (step : Nat → Arr Nat → Res (Arr Nat)) (L L' : Nat → List Nat) (pre : Bool)
    (hl : ∀ i, i < n → (L i).length = len i) (hl' : ∀ i, i < n → (L' i).length = len i)
    {a : Arr Nat} (ha : a.size = sz)
    (hP : ∀ i, i < n → pre = true → SegAt a (segStart len i) (L i))
    (hs : ∀ i a, i < n → a.size = sz → (pre = true → SegAt a (segStart len i) (L i)) →
      (step i a).wp E (fun a' => a'.size = sz ∧ SegAt a' (segStart len i) (L' i) ∧
        ∀ k, ¬ (segStart len i ≤ k ∧ k < segStart len i + len i) → a'.get k = a.get k)) :
    (forList sc a fun ti a => step ti.2 a).wp E (fun a' => a'.size = sz ∧
      (∀ i, i < n → SegAt a' (segStart len i) (L' i)) ∧
      ∀ k, segStart len n ≤ k → a'.get k = a.get k) := by
  refine Res.wp_mono (wp_rows hsc
    (G := fun a' => a'.size = sz ∧ ∀ k, segStart len n ≤ k → a'.get k = a.get k)
    (P := fun i a => pre = true → SegAt a (segStart len i) (L i))
    (Q := fun i a => SegAt a (segStart len i) (L' i)) ⟨ha, fun _ _ => rfl⟩
    (fun i _ h2 => hP i h2) ?_) ?_
  · rintro t i a1 - hi ⟨hG, hG2⟩ hPi
    simp only
    refine Res.wp_mono (hs i a1 hi hG hPi) ?_
    rintro a2 ⟨g1, g2, g3⟩
    refine ⟨⟨g1, fun k hk => ?_⟩, g2, ?_⟩
    · rw [g3 k, hG2 k hk]
      rintro ⟨_, h2⟩
      have := segStart_mono len (show i + 1 ≤ n by omega)
      simp only [segStart] at this
      omega
    · intro j _ hj hne
      have hout : ∀ k, segStart len j ≤ k → k < segStart len j + len j → a2.get k = a1.get k := by
        intro k h1 h2
        refine g3 k ?_
        rintro ⟨h3, h4⟩
        exact hne (segStart_disjoint len h1 h2 h3 h4)
      exact ⟨fun h hp => (h hp).congr (by rw [hl j hj]; exact hout),
        fun h => h.congr (by rw [hl' j hj]; exact hout)⟩
  · rintro a2 ⟨⟨h1, h2⟩, h3⟩
    exact ⟨h1, fun i hi => h3 i (Nat.zero_le _) hi, h2⟩

/-- `xadj` holds the starts of the segments. -/
def IsXadj (xadj : Arr Int) (n : Nat) (len : Nat → Nat) : Prop :=
  n + 1 ≤ xadj.size ∧ ∀ i, i ≤ n → xadj.get i = (segStart len i : Int)

theorem toIdx_nat (n : Nat) : toIdx (n : Int) = .ok n := by
  unfold toIdx
  rw [if_neg (by omega)]
  simp

theorem wp_xadjBump {n : Nat} {x : Arr Int} (h : n ≤ x.size) :
    (Ell.xadjBump n x).wp E (fun x' => x'.size = x.size ∧ ∀ i, i < n → x'.get i = x.get i + 1) := by
  unfold Ell.xadjBump
  refine Res.wp_mono (wp_loop' (Q := fun x' => x'.size = x.size ∧ (∀ i, i < n → x'.get i = x.get i + 1) ∧
      ∀ i, n ≤ i → x'.get i = x.get i)
    (fun k x' => x'.size = x.size ∧ (∀ i, i < k → x'.get i = x.get i + 1) ∧
      ∀ i, k ≤ i → x'.get i = x.get i) ⟨rfl, by omega, fun _ _ => rfl⟩ ?_ (fun _ h => h)) ?_
  · rintro k hk x1 ⟨g1, g2, g3⟩
    rw [Arr.read_ok (by omega), Res.bind_ok, Arr.wp_write]
    refine ⟨by omega, g1, ?_, ?_⟩
    · intro i hi
      simp only
      by_cases he : i = k
      · subst he; rw [upd_same, g3 i (le_refl _)]
      · rw [upd_ne _ _ he]; exact g2 i (by omega)
    · intro i hi
      simp only
      rw [upd_ne _ _ (by omega)]
      exact g3 i (by omega)
  · rintro x' ⟨h1, h2, _⟩
    exact ⟨h1, h2⟩

theorem wp_adjBump {n sz : Nat} {len : Nat → Nat} {x : Arr Int} (hx : IsXadj x n len) {i : Nat}
    (hi : i < n) {a : Arr Nat} (ha : a.size = sz) (hsz : segStart len n ≤ sz) {L : List Nat}
    (hL : L.length = len i) (hseg : SegAt a (segStart len i) L) :
    (Ell.adjBump x i a).wp E (fun a' => a'.size = sz ∧ SegAt a' (segStart len i) (L.map (· + 1)) ∧
        ∀ k, ¬ (segStart len i ≤ k ∧ k < segStart len i + len i) → a'.get k = a.get k) := by
  have hm := segStart_mono len (show i + 1 ≤ n by omega)
  simp only [segStart] at hm
  unfold Ell.adjBump
  have h1 := hx.1
  rw [Arr.read_ok (by omega), Res.bind_ok, Arr.read_ok (by omega), Res.bind_ok, hx.2 i (by omega),
    hx.2 (i + 1) (by omega)]
  have hlen : ((segStart len (i + 1) : Int) - (segStart len i : Int)).toNat = len i := by
    simp only [segStart]; omega
  rw [hlen]
  refine wp_loop' (fun d a' => a'.size = sz ∧
    (∀ k, segStart len i ≤ k → k < segStart len i + d → a'.get k = a.get k + 1) ∧
    ∀ k, ¬ (segStart len i ≤ k ∧ k < segStart len i + d) → a'.get k = a.get k)
    ⟨ha, by omega, fun _ _ => rfl⟩ ?_ ?_
  · rintro d hd a1 ⟨g1, g2, g3⟩
    rw [show (segStart len i : Int) + (d : Int) = ((segStart len i + d : Nat) : Int) by push_cast; rfl,
      toIdx_nat, Res.bind_ok, Arr.read_ok (by omega), Res.bind_ok, Arr.wp_write]
    refine ⟨by omega, g1, ?_, ?_⟩
    · intro k h1 h2
      simp only
      by_cases he : k = segStart len i + d
      · subst he; rw [upd_same, g3 _ (by omega)]
      · rw [upd_ne _ _ he]; exact g2 k h1 (by omega)
    · intro k hk
      simp only
      rw [upd_ne _ _ (by omega)]
      exact g3 k (by omega)
  · rintro a1 ⟨g1, g2, g3⟩
    refine ⟨g1, ?_, g3⟩
    intro p hp
    rw [List.length_map] at hp
    rw [g2 _ (by omega) (by omega), hseg p hp]
    simp

theorem wp_sortSeg {n sz : Nat} {len : Nat → Nat} {x : Arr Int} (hx : IsXadj x n len) {i : Nat}
    (hi : i < n) {a : Arr Nat} (ha : a.size = sz) (hsz : segStart len n ≤ sz) {L : List Nat}
    (hL : L.length = len i) (hseg : SegAt a (segStart len i) L) :
    (do
      let b ← x.read i
      let c ← x.read (i + 1)
      sortSeg a b (c - b)).wp E (fun a' => a'.size = sz ∧
        SegAt a' (segStart len i) (L.insertionSort (· ≤ ·)) ∧
        ∀ k, ¬ (segStart len i ≤ k ∧ k < segStart len i + len i) → a'.get k = a.get k) := by
  have hm := segStart_mono len (show i + 1 ≤ n by omega)
  simp only [segStart] at hm
  have h1 := hx.1
  rw [Arr.read_ok (by omega), Res.bind_ok, Arr.read_ok (by omega), Res.bind_ok, hx.2 i (by omega),
    hx.2 (i + 1) (by omega)]
  unfold sortSeg
  have hlen : ((segStart len (i + 1) : Int) - (segStart len i : Int)) = ((len i : Nat) : Int) := by
    simp only [segStart]; omega
  rw [hlen, toIdx_nat, Res.bind_ok, toIdx_nat, Res.bind_ok, if_pos (by omega)]
  have hLs : ((List.range (len i)).map fun p => a.get (segStart len i + p)) = L := by
    apply List.ext_getElem
    · simp [hL]
    · intro p h1 h2
      simp only [List.getElem_map, List.getElem_range]
      exact hseg p h2
  rw [hLs]
  simp only [Res.pure_eq, Res.wp_ok]
  refine ⟨ha, ?_, ?_⟩
  · intro p hp
    have hp' := hp
    rw [List.length_insertionSort] at hp'
    simp only
    rw [if_pos (by omega), show segStart len i + p - segStart len i = p by omega]
    simp [List.getD, List.getElem?_eq_getElem hp]
  · intro k hk
    show (if _ then _ else _) = _
    rw [if_neg hk]

namespace Ell

variable {R : Type} [CommRing R]

theorem wp_hasCol {N : Nat} {A : Ell R} {a : Spec.Mat R} (hA : A.Rep N a) {r : Nat} (hr : r < N)
    (c : Nat) : ∀ fuel l, l + fuel = A.nnz.get r →
      (hasCol A r c l fuel).wp E (fun b => b = true ↔
        ∃ q, l ≤ q ∧ q < A.nnz.get r ∧ A.idx.get (r * A.M + q) = c) := by
  have hd := hA.dim
  have hle := hA.le _ hr
  intro fuel
  induction fuel with
  | zero =>
    intro l hl
    show (false = true) ↔ _
    simp only [Bool.false_eq_true, false_iff]
    rintro ⟨q, h1, h2, _⟩
    omega
  | succ fuel ih =>
    intro l hl
    unfold hasCol
    rw [read_idx hA.shape (by omega) (by omega), Res.bind_ok]
    by_cases he : A.idx.get (r * A.M + l) = c
    · rw [if_pos he]
      simp only [Res.pure_eq, Res.wp_ok, true_iff]
      exact ⟨l, le_refl _, by omega, he⟩
    · rw [if_neg he]
      refine Res.wp_mono (ih (l + 1) (by omega)) ?_
      intro b hb
      rw [hb]
      constructor
      · rintro ⟨q, h1, h2⟩; exact ⟨q, by omega, h2⟩
      · rintro ⟨q, h1, h2⟩
        refine ⟨q, ?_, h2⟩
        rcases Nat.lt_or_ge l q with hlt | hge
        · exact hlt
        · have : q = l := by omega
          subst this
          exact absurd h2.2 he

/-- The search returns whether the position is stored. -/
theorem hasCol_eq {N : Nat} {A : Ell R} {a : Spec.Mat R} (hA : A.Rep N a) {r : Nat} (hr : r < N)
    (c : Nat) : hasCol A r c 0 (A.nnz.get r) = .ok (decide (A.Stored r c)) := by
  obtain ⟨b, e, hb⟩ := Res.wp_exists (wp_hasCol (E := False) hA hr c (A.nnz.get r) 0 (by omega))
  rw [e]
  congr 1
  rw [eq_comm, Bool.eq_iff_iff, decide_eq_true_iff, hb]
  simp [Stored]

/-- The neighbours of row `i` in the order of the row. -/
def offCols (A : Ell R) (i : Nat) : List Nat := (A.colsOf i).filter (fun k => decide (k ≠ i))

omit [CommRing R] in
theorem mem_offCols {A : Ell R} {i c : Nat} : c ∈ A.offCols i ↔ A.Stored i c ∧ c ≠ i := by
  unfold offCols
  rw [List.mem_filter, mem_colsOf]
  simp

theorem offCols_nodup {N : Nat} {A : Ell R} {a : Spec.Mat R} (hA : A.Rep N a) {i : Nat}
    (hi : i < N) : (A.offCols i).Nodup := (hA.good i hi).1.filter _

theorem offCols_length {N : Nat} {A : Ell R} {a : Spec.Mat R} (hA : A.Rep N a) {i : Nat}
    (hi : i < N) : (A.offCols i).length + (if A.Stored i i then 1 else 0) = A.nnz.get i := by
  have hnd : (A.colsOf i).Nodup := (hA.good i hi).1
  have hlen : (A.colsOf i).length = A.nnz.get i := by simp [colsOf, row_length]
  have hsplit : ((A.colsOf i).filter (fun k => decide (k ≠ i))).length +
      ((A.colsOf i).filter (fun k => decide (k = i))).length = (A.colsOf i).length := by
    have := List.length_eq_length_filter_add (l := A.colsOf i) (fun k => decide (k = i))
    simp only [ne_eq, decide_not]
    omega
  have hcount : ((A.colsOf i).filter (fun k => decide (k = i))).length =
      if A.Stored i i then 1 else 0 := by
    rw [← List.countP_eq_length_filter]
    have : List.countP (fun k => decide (k = i)) (A.colsOf i) = List.count i (A.colsOf i) := by
      unfold List.count
      congr 1
    rw [this]
    by_cases h : i ∈ A.colsOf i
    · rw [List.count_eq_one_of_mem hnd h, if_pos (mem_colsOf.1 h)]
    · rw [List.count_eq_zero_of_not_mem h, if_neg (fun hh => h (mem_colsOf.2 hh))]
  unfold offCols
  omega

theorem wp_adjFill {N sz : Nat} {A : Ell R} {a : Spec.Mat R} (hA : A.Rep N a) {x : Arr Int}
    {len : Nat → Nat} (hx : IsXadj x N len) {i : Nat} (hi : i < N)
    (hlen : (A.offCols i).length = len i) {adj : Arr Nat} (ha : adj.size = sz)
    (hsz : segStart len N ≤ sz) :
    (adjFill A x i adj).wp E (fun a' => a'.size = sz ∧ SegAt a' (segStart len i) (A.offCols i) ∧
        ∀ k, ¬ (segStart len i ≤ k ∧ k < segStart len i + len i) → a'.get k = adj.get k) := by
  have hm := segStart_mono len (show i + 1 ≤ N by omega)
  simp only [segStart] at hm
  have h1 := hx.1
  have hd := hA.dim
  have hle := hA.le _ hi
  unfold adjFill
  rw [Arr.read_ok (by omega), Res.bind_ok, hx.2 i (by omega), read_nnz hA.shape (by omega),
    Res.bind_ok, Res.wp_bind]
  have hfull : A.offCols i = ((A.rowPre i (A.nnz.get i)).map Prod.fst).filter
      (fun k => decide (k ≠ i)) := rfl
  have hpre : ∀ m, m ≤ A.nnz.get i → (((A.rowPre i m).map Prod.fst).filter
      (fun k => decide (k ≠ i))).length ≤ len i := by
    intro m hm'
    rw [← hlen, hfull]
    apply List.Sublist.length_le
    apply List.Sublist.filter
    apply List.Sublist.map
    have : A.rowPre i m = (A.rowPre i (A.nnz.get i)).take m := rowPre_take A i _ _ hm'
    rw [this]
    exact List.take_sublist _ _
  refine wp_loop' (fun m (st : Arr Nat × Int) => st.1.size = sz ∧
    st.2 = ((segStart len i + (((A.rowPre i m).map Prod.fst).filter
      (fun k => decide (k ≠ i))).length : Nat) : Int) ∧
    SegAt st.1 (segStart len i) (((A.rowPre i m).map Prod.fst).filter (fun k => decide (k ≠ i))) ∧
    ∀ k, ¬ (segStart len i ≤ k ∧ k < segStart len i + len i) → st.1.get k = adj.get k) ?_ ?_ ?_
  · refine ⟨ha, by simp [rowPre], ?_, fun _ _ => rfl⟩
    intro p hp
    simp [rowPre] at hp
  · rintro m hm' ⟨a1, j⟩ ⟨g1, g2, g3, g4⟩
    simp only at g1 g2 g3 g4
    rw [read_idx hA.shape (by omega) (by omega), Res.bind_ok]
    have hstep : ((A.rowPre i (m + 1)).map Prod.fst).filter (fun k => decide (k ≠ i)) =
        ((A.rowPre i m).map Prod.fst).filter (fun k => decide (k ≠ i)) ++
          (if A.idx.get (i * A.M + m) ≠ i then [A.idx.get (i * A.M + m)] else []) := by
      rw [rowPre_succ, List.map_append, List.filter_append]
      congr 1
      by_cases h : A.idx.get (i * A.M + m) = i <;> simp [h]
    by_cases hk : A.idx.get (i * A.M + m) ≠ i
    · have hl := hpre (m + 1) (by omega)
      rw [if_pos hk, g2, toIdx_nat, Res.bind_ok, Res.wp_bind, Arr.wp_write]
      rw [if_pos hk] at hstep
      rw [hstep]
      rw [hstep, List.length_append] at hl
      simp only [List.length_cons, List.length_nil] at hl
      refine ⟨by simp only; omega, ?_⟩
      simp only [Res.pure_eq, Res.wp_ok]
      refine ⟨g1, by rw [List.length_append]; push_cast; simp [add_assoc], ?_, ?_⟩
      · intro p hp
        rw [List.length_append] at hp
        simp only [List.length_cons, List.length_nil] at hp
        simp only
        by_cases he : p = (((A.rowPre i m).map Prod.fst).filter (fun k => decide (k ≠ i))).length
        · subst he
          rw [upd_same, List.getElem_append_right (le_refl _)]
          simp
        · rw [upd_ne _ _ (by omega), List.getElem_append_left (by omega)]
          exact g3 p (by omega)
      · intro k hk'
        rw [upd_ne _ _ (by omega)]
        exact g4 k hk'
    · rw [if_neg hk]
      rw [if_neg hk, List.append_nil] at hstep
      rw [hstep]
      exact ⟨g1, g2, g3, g4⟩
  · rintro ⟨a1, j⟩ ⟨g1, g2, g3, g4⟩
    exact ⟨g1, g3, g4⟩

/-- Either every row stores its diagonal element or none does. -/
def UniformDiag (A : Ell R) (N : Nat) : Prop :=
  (∀ i, i < N → A.Stored i i) ∨ (∀ i, i < N → ¬ A.Stored i i)

/-- The lists of the result. -/
def adjLists (A : Ell R) (base : Bool) (i : Nat) : List Nat :=
  if base then ((A.offCols i).insertionSort (· ≤ ·)).map (· + 1)
  else (A.offCols i).insertionSort (· ≤ ·)

theorem wp_adjacency {N : Nat} {A : Ell R} {a : Spec.Mat R} (hA : A.Rep N a) (hN : 0 < N)
    (hdiag : UniformDiag A N) {x : Arr Int} (hx : N + 1 ≤ x.size) {adj : Arr Nat}
    (hsz : segStart (fun i => (A.offCols i).length) N ≤ adj.size) (base : Bool)
    {sc1 sc2 sc3 : Sched} (h1 : IsSched 0 N sc1) (h2 : IsSched 0 N sc2) (h3 : IsSched 0 N sc3) :
    (adjacency A x adj base sc1 sc2 sc3).wp E (fun r =>
      r.1.size = x.size ∧ r.2.size = adj.size ∧
      (∀ i, i ≤ N → r.1.get i = (segStart (fun i => (A.offCols i).length) i : Int) +
        (if base then 1 else 0)) ∧
      ∀ i, i < N → SegAt r.2 (segStart (fun i => (A.offCols i).length) i) (adjLists A base i)) := by
  have hd := hA.dim
  set len : Nat → Nat := fun i => (A.offCols i).length with hlen
  unfold adjacency
  rw [Arr.write_ok _ (by omega), Res.bind_ok, read_nnz hA.shape (by omega), Res.bind_ok,
    hasCol_eq hA hN, Res.bind_ok, Res.wp_bind, hd]
  have hcheck : ∀ i, i < N → (A.Stored 0 0 ↔ A.Stored i i) := by
    intro i hi
    rcases hdiag with h | h
    · exact ⟨fun _ => h i hi, fun _ => h 0 hN⟩
    · exact ⟨fun hh => absurd hh (h 0 hN), fun hh => absurd hh (h i hi)⟩
  refine wp_loopFrom (fun m x' => x'.size = x.size ∧ ∀ i, i < m → x'.get i = (segStart len i : Int))
    (by omega) ⟨rfl, ?_⟩ ?_ ?_
  · intro i hi
    have : i = 0 := by omega
    subst this
    simp [segStart]
  · rintro m hm1 hm2 x1 ⟨g1, g2⟩
    rw [Arr.read_ok (by omega), Res.bind_ok, read_nnz hA.shape (by omega), Res.bind_ok,
      g2 (m - 1) (by omega)]
    have hL := offCols_length hA (i := m - 1) (by omega)
    obtain ⟨m', rfl⟩ : ∃ m', m = m' + 1 := ⟨m - 1, by omega⟩
    simp only [Nat.add_sub_cancel] at hL ⊢
    have hgoal : ∀ v : Int, v = (segStart len (m' + 1) : Int) →
        (x1.write (m' + 1) v).wp E (fun x' => x'.size = x.size ∧
          ∀ i, i < m' + 1 + 1 → x'.get i = (segStart len i : Int)) := by
      intro v hv
      rw [Arr.wp_write]
      refine ⟨by omega, g1, ?_⟩
      intro i hi
      simp only
      by_cases he : i = m' + 1
      · subst he; rw [upd_same, hv]
      · rw [upd_ne _ _ he]; exact g2 i (by omega)
    have hs : segStart len (m' + 1) = segStart len m' + (A.offCols m').length := rfl
    by_cases hc : A.Stored 0 0
    · rw [if_pos (by simpa using hc)]
      rw [if_pos ((hcheck m' (by omega)).1 hc)] at hL
      refine hgoal _ ?_
      rw [hs]; omega
    · rw [if_neg (by simpa using hc)]
      rw [if_neg (fun h => hc ((hcheck m' (by omega)).2 h))] at hL
      refine hgoal _ ?_
      rw [hs]; omega
  · rintro x1 ⟨g1, g2⟩
    have hX : IsXadj x1 N len := ⟨by omega, fun i hi => g2 i (by omega)⟩
    simp only [Res.wp_bind]
    refine Res.wp_mono (wp_segs h1 len (fun i a => adjFill A x1 i a) (fun i => A.offCols i)
      (fun i => A.offCols i) false (fun _ _ => rfl) (fun _ _ => rfl) rfl (by simp) ?_) ?_
    · intro i a1 hi ha1 _
      exact wp_adjFill hA hX hi rfl ha1 hsz
    rintro adj1 ⟨s1, s2, _⟩
    refine Res.wp_mono (wp_segs h2 len (fun i a => do
        let b ← x1.read i
        let c ← x1.read (i + 1)
        sortSeg a b (c - b)) (fun i => A.offCols i)
      (fun i => (A.offCols i).insertionSort (· ≤ ·)) true (fun _ _ => rfl)
      (fun i _ => List.length_insertionSort _ _) s1 (fun i hi _ => s2 i hi) ?_) ?_
    · intro i a1 hi ha1 hseg
      exact wp_sortSeg hX hi ha1 hsz rfl (hseg rfl)
    rintro adj2 ⟨s3, s4, _⟩
    cases base with
    | false =>
      simp only [Bool.false_eq_true, if_false, Res.pure_eq, Res.wp_ok, add_zero]
      refine ⟨g1, s3, fun i hi => g2 i (by omega), fun i hi => ?_⟩
      simpa [adjLists] using s4 i hi
    | true =>
      simp only [if_true, Res.wp_bind]
      refine Res.wp_mono (wp_segs h3 len (fun i a => adjBump x1 i a)
        (fun i => (A.offCols i).insertionSort (· ≤ ·))
        (fun i => ((A.offCols i).insertionSort (· ≤ ·)).map (· + 1)) true
        (fun i _ => List.length_insertionSort _ _) (fun i _ => by simp [hlen]) s3
        (fun i hi _ => s4 i hi) ?_) ?_
      · intro i a1 hi ha1 hseg
        exact wp_adjBump hX hi ha1 hsz (List.length_insertionSort _ _) (hseg rfl)
      rintro adj3 ⟨s5, s6, _⟩
      refine Res.wp_mono (wp_xadjBump (by omega)) ?_
      rintro x2 ⟨u1, u2⟩
      simp only [Res.pure_eq, Res.wp_ok]
      refine ⟨u1.trans g1, s5, fun i hi => ?_, fun i hi => ?_⟩
      · rw [u2 i (by omega), g2 i (by omega)]
      · simpa [adjLists] using s6 i hi

/-! ## Groups -/

/-- The groups whose first row is a stored column of the first row of group `i`. -/
def grpAdj (A : Ell R) (h : Nat → Nat) (nn i : Nat) : List Nat :=
  (List.range nn).filter (fun j => decide (A.Stored (h i - 1) (h j - 1)))

theorem wp_groupFirst {hindex : Arr Nat} {nn : Nat} (hs : nn ≤ hindex.size)
    (hpos : ∀ i, i < nn → 1 ≤ hindex.get i) :
    (groupFirst hindex nn).wp E (fun hn => hn.size = nn ∧ ∀ i, i < nn → hn.get i = hindex.get i - 1) := by
  unfold groupFirst
  refine wp_loop' (fun m hn => hn.size = nn ∧ ∀ i, i < m → hn.get i = hindex.get i - 1)
    ⟨rfl, by omega⟩ ?_ (fun _ h => h)
  rintro m hm hn ⟨g1, g2⟩
  have := hpos m hm
  rw [Arr.read_ok (by omega), Res.bind_ok, if_neg (by omega), Arr.wp_write]
  refine ⟨by omega, g1, fun i hi => ?_⟩
  simp only
  by_cases he : i = m
  · subst he; simp
  · rw [upd_ne _ _ he]; exact g2 i (by omega)

theorem filter_range_succ (p : Nat → Bool) (j : Nat) :
    (List.range (j + 1)).filter p = (List.range j).filter p ++ (if p j then [j] else []) := by
  rw [List.range_succ, List.filter_append]
  congr 1
  by_cases h : p j <;> simp [h]

theorem wp_groupCount {N nn : Nat} {A : Ell R} {a : Spec.Mat R} (hA : A.Rep N a)
    {h : Nat → Nat} {hnode : Arr Nat} (hs : hnode.size = nn)
    (hn : ∀ i, i < nn → hnode.get i = h i - 1) (hlt : ∀ i, i < nn → h i - 1 < N)
    {i : Nat} (hi : i < nn) {x : Arr Int} (hx : nn + 1 ≤ x.size)
    (hxi : ∀ k, k ≤ i → x.get k = (segStart (fun i => (grpAdj A h nn i).length) k : Int)) :
    (groupCount A hnode nn i x).wp E (fun x' => x'.size = x.size ∧
      ∀ k, k ≤ i + 1 → x'.get k = (segStart (fun i => (grpAdj A h nn i).length) k : Int)) := by
  have hd := hA.dim
  have hli := hlt i hi
  unfold groupCount
  rw [Arr.read_ok (by omega), Res.bind_ok, hn i hi, read_nnz hA.shape (by omega), Res.bind_ok,
    Res.wp_bind]
  refine wp_loop' (fun m (c : Int) => c = (((List.range m).filter
    (fun j => decide (A.Stored (h i - 1) (h j - 1)))).length : Int)) (by simp) ?_ ?_
  · rintro m hm c rfl
    rw [Arr.read_ok (by omega), Res.bind_ok, hn m hm, hasCol_eq hA hli, Res.bind_ok,
      filter_range_succ]
    by_cases hst : A.Stored (h i - 1) (h m - 1)
    · simp [hst]
    · simp [hst]
  · rintro c rfl
    rw [Arr.read_ok (by omega), Res.bind_ok, Arr.wp_write, hxi i (le_refl _)]
    refine ⟨by omega, rfl, fun k hk => ?_⟩
    simp only
    by_cases he : k = i + 1
    · subst he
      rw [upd_same]
      simp [segStart, grpAdj]
    · rw [upd_ne _ _ he]; exact hxi k (by omega)

theorem wp_groupAdjFill {N nn sz : Nat} {A : Ell R} {a : Spec.Mat R} (hA : A.Rep N a)
    {h : Nat → Nat} {hnode : Arr Nat} (hs : hnode.size = nn)
    (hn : ∀ i, i < nn → hnode.get i = h i - 1) (hlt : ∀ i, i < nn → h i - 1 < N)
    {x : Arr Int} {len : Nat → Nat} (hx : IsXadj x nn len) {i : Nat} (hi : i < nn)
    (hlen : (grpAdj A h nn i).length = len i) {adj : Arr Nat} (ha : adj.size = sz)
    (hsz : segStart len nn ≤ sz) :
    (groupAdjFill A hnode nn x i adj).wp E (fun a' => a'.size = sz ∧
        SegAt a' (segStart len i) (grpAdj A h nn i) ∧
        ∀ k, ¬ (segStart len i ≤ k ∧ k < segStart len i + len i) → a'.get k = adj.get k) := by
  have hm := segStart_mono len (show i + 1 ≤ nn by omega)
  simp only [segStart] at hm
  have h1 := hx.1
  have hd := hA.dim
  have hli := hlt i hi
  unfold groupAdjFill
  rw [Arr.read_ok (by omega), Res.bind_ok, hx.2 i (by omega), Arr.read_ok (by omega), Res.bind_ok,
    hn i hi, read_nnz hA.shape (by omega), Res.bind_ok, Res.wp_bind]
  have hpre : ∀ m, m ≤ nn → ((List.range m).filter
      (fun j => decide (A.Stored (h i - 1) (h j - 1)))).length ≤ len i := by
    intro m hm'
    rw [← hlen]
    unfold grpAdj
    apply List.Sublist.length_le
    apply List.Sublist.filter
    exact List.range_sublist.2 hm'
  refine wp_loop' (fun m (st : Arr Nat × Int) => st.1.size = sz ∧
    st.2 = ((segStart len i + ((List.range m).filter
      (fun j => decide (A.Stored (h i - 1) (h j - 1)))).length : Nat) : Int) ∧
    SegAt st.1 (segStart len i) ((List.range m).filter
      (fun j => decide (A.Stored (h i - 1) (h j - 1)))) ∧
    ∀ k, ¬ (segStart len i ≤ k ∧ k < segStart len i + len i) → st.1.get k = adj.get k) ?_ ?_ ?_
  · exact ⟨ha, by simp, fun p hp => by simp at hp, fun _ _ => rfl⟩
  · rintro m hm' ⟨a1, j⟩ ⟨g1, g2, g3, g4⟩
    simp only at g1 g2 g3 g4
    rw [Arr.read_ok (by omega), Res.bind_ok, hn m hm', hasCol_eq hA hli, Res.bind_ok]
    have hstep := filter_range_succ (fun j => decide (A.Stored (h i - 1) (h j - 1))) m
    by_cases hst : A.Stored (h i - 1) (h m - 1)
    · have hl := hpre (m + 1) (by omega)
      rw [if_pos (by simpa using hst), g2, toIdx_nat, Res.bind_ok, Res.wp_bind, Arr.wp_write]
      rw [if_pos (by simpa using hst)] at hstep
      rw [hstep]
      rw [hstep, List.length_append] at hl
      simp only [List.length_cons, List.length_nil] at hl
      refine ⟨by simp only; omega, ?_⟩
      simp only [Res.pure_eq, Res.wp_ok]
      refine ⟨g1, by rw [List.length_append]; push_cast; simp [add_assoc], ?_, ?_⟩
      · intro p hp
        rw [List.length_append] at hp
        simp only [List.length_cons, List.length_nil] at hp
        simp only
        by_cases he : p = ((List.range m).filter
            (fun j => decide (A.Stored (h i - 1) (h j - 1)))).length
        · subst he
          rw [upd_same, List.getElem_append_right (le_refl _)]
          simp
        · rw [upd_ne _ _ (by omega), List.getElem_append_left (by omega)]
          exact g3 p (by omega)
      · intro k hk'
        rw [upd_ne _ _ (by omega)]
        exact g4 k hk'
    · rw [if_neg (by simpa using hst)]
      rw [if_neg (by simpa using hst), List.append_nil] at hstep
      rw [hstep]
      exact ⟨g1, g2, g3, g4⟩
  · rintro ⟨a1, j⟩ ⟨g1, g2, g3, g4⟩
    exact ⟨g1, g3, g4⟩

/-- The part of `adjacencyGroup` before the change of base. -/
theorem wp_adjacencyGroup {N nn : Nat} {A : Ell R} {a : Spec.Mat R} (hA : A.Rep N a)
    {hindex : Arr Nat} (hs : nn ≤ hindex.size)
    (hpos : ∀ i, i < nn → 1 ≤ hindex.get i ∧ hindex.get i ≤ N) {x : Arr Int} (hx : nn + 1 ≤ x.size)
    {adj : Arr Nat} (hsz : segStart (fun i => (grpAdj A hindex.get nn i).length) nn ≤ adj.size)
    {sc : Sched} (hsc : IsSched 0 nn sc) {α : Type} (k : Arr Int → Arr Nat → Res α) {Q : α → Prop}
    (hk : ∀ x' adj', x'.size = x.size → adj'.size = adj.size →
      (∀ i, i ≤ nn → x'.get i = (segStart (fun i => (grpAdj A hindex.get nn i).length) i : Int)) →
      (∀ i, i < nn → SegAt adj' (segStart (fun i => (grpAdj A hindex.get nn i).length) i)
        (grpAdj A hindex.get nn i)) → (k x' adj').wp E Q) :
    (do
      let hnode ← groupFirst hindex nn
      let xadj ← x.write 0 0
      let xadj ← loop nn xadj fun i xadj => groupCount A hnode nn i xadj
      let adj ← forList sc adj fun ti adj => groupAdjFill A hnode nn xadj ti.2 adj
      k xadj adj).wp E Q := by
  set len : Nat → Nat := fun i => (grpAdj A hindex.get nn i).length with hlen
  rw [Res.wp_bind]
  refine Res.wp_mono (wp_groupFirst hs (fun i hi => (hpos i hi).1)) ?_
  rintro hnode ⟨n1, n2⟩
  have hlt : ∀ i, i < nn → hindex.get i - 1 < N := fun i hi => by
    have := hpos i hi; omega
  rw [Arr.write_ok _ (by omega), Res.bind_ok, Res.wp_bind]
  refine wp_loop' (fun m x' => x'.size = x.size ∧ ∀ k, k ≤ m → x'.get k = (segStart len k : Int))
    ⟨rfl, fun k hk => ?_⟩ ?_ ?_
  · have : k = 0 := by omega
    subst this
    simp [segStart]
  · rintro m hm x1 ⟨g1, g2⟩
    refine Res.wp_mono (wp_groupCount hA n1 n2 hlt hm (by omega) g2) ?_
    rintro x2 ⟨u1, u2⟩
    exact ⟨u1.trans g1, u2⟩
  · rintro x1 ⟨g1, g2⟩
    have hX : IsXadj x1 nn len := ⟨by omega, g2⟩
    rw [Res.wp_bind]
    refine Res.wp_mono (wp_segs hsc len (fun i a => groupAdjFill A hnode nn x1 i a)
      (fun i => grpAdj A hindex.get nn i) (fun i => grpAdj A hindex.get nn i) false
      (fun _ _ => rfl) (fun _ _ => rfl) rfl (by simp) ?_) ?_
    · intro i a1 hi ha1 _
      exact wp_groupAdjFill hA n1 n2 hlt hX hi rfl ha1 hsz
    rintro adj1 ⟨s1, s2, _⟩
    exact hk x1 adj1 g1 s1 g2 s2

/-- Adding one to the first `m` cells. -/
theorem wp_bumpAll {m : Nat} {a : Arr Nat} (h : m ≤ a.size) :
    (loop m a fun i adj => do
      let v ← adj.read i
      adj.write i (v + 1)).wp E (fun a' => a'.size = a.size ∧ ∀ i, i < m → a'.get i = a.get i + 1) := by
  refine Res.wp_mono (wp_loop' (Q := fun a' => a'.size = a.size ∧
      (∀ i, i < m → a'.get i = a.get i + 1) ∧ ∀ i, m ≤ i → a'.get i = a.get i)
    (fun k a' => a'.size = a.size ∧ (∀ i, i < k → a'.get i = a.get i + 1) ∧
      ∀ i, k ≤ i → a'.get i = a.get i) ⟨rfl, by omega, fun _ _ => rfl⟩ ?_ (fun _ h => h)) ?_
  · rintro k hk x1 ⟨g1, g2, g3⟩
    rw [Arr.read_ok (by omega), Res.bind_ok, Arr.wp_write]
    refine ⟨by omega, g1, ?_, ?_⟩
    · intro i hi
      simp only
      by_cases he : i = k
      · subst he; rw [upd_same, g3 i (le_refl _)]
      · rw [upd_ne _ _ he]; exact g2 i (by omega)
    · intro i hi
      simp only
      rw [upd_ne _ _ (by omega)]
      exact g3 i (by omega)
  · rintro x' ⟨h1, h2, _⟩
    exact ⟨h1, h2⟩

/-- Adding one to more cells than there are. -/
theorem bumpAll_ub {m : Nat} {a : Arr Nat} (h : a.size < m) :
    (loop m a fun i adj => do
      let v ← adj.read i
      adj.write i (v + 1) : Res (Arr Nat)) = .ub := by
  obtain ⟨d, rfl⟩ : ∃ d, m = a.size + 1 + d := ⟨m - (a.size + 1), by omega⟩
  have key : (loop (a.size + 1) a fun i adj => do
      let v ← adj.read i
      adj.write i (v + 1) : Res (Arr Nat)) = .ub := by
    obtain ⟨a', e, h1, -⟩ := Res.wp_exists (wp_bumpAll (E := False) (m := a.size) (a := a) (le_refl _))
    rw [loop_succ, e, Res.bind_ok, Arr.read_ub (by omega)]
    rfl
  induction d with
  | zero => exact key
  | succ d ih =>
    rw [← Nat.add_assoc, loop_succ, ih (by omega)]
    rfl

end Ell

end Bml
