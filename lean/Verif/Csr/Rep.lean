import Verif.Csr.Model
import Verif.Ellpack.Construct

/-!
# What a CSR matrix represents; rows as lists
-/

set_option linter.unusedSectionVars false

namespace Bml

namespace CsrRow

variable {R : Type} {E : Prop}

/-- The stored entries in storage order. -/
def list (r : CsrRow R) : SRow R := (List.range r.nnz).map fun k => (r.cols.get k, r.vals.get k)

/-- A well-formed row object: both arrays have `alloc_size_` cells, of which `NNZ_` are in use, and
`alloc_size_` is at least `INIT_ROW_SPACE`. -/
structure WF (r : CsrRow R) : Prop where
  cols_size : r.cols.size = r.alloc
  vals_size : r.vals.size = r.alloc
  nnz_le : r.nnz ≤ r.alloc
  space : 10 ≤ r.alloc

/-- A well-formed row with the entries `L`. -/
def Is (r : CsrRow R) (L : SRow R) : Prop := r.WF ∧ r.list = L

@[simp] theorem list_length (r : CsrRow R) : r.list.length = r.nnz := by simp [list]

theorem Is.length {r : CsrRow R} {L : SRow R} (h : r.Is L) : r.nnz = L.length := by
  rw [← h.2, list_length]

theorem Is.cols_size {r : CsrRow R} {L : SRow R} (h : r.Is L) : r.cols.size = r.alloc := h.1.cols_size
theorem Is.vals_size {r : CsrRow R} {L : SRow R} (h : r.Is L) : r.vals.size = r.alloc := h.1.vals_size
theorem Is.nnz_le {r : CsrRow R} {L : SRow R} (h : r.Is L) : r.nnz ≤ r.alloc := h.1.nnz_le

theorem mem_list {r : CsrRow R} {p : Nat × R} :
    p ∈ r.list ↔ ∃ k, k < r.nnz ∧ (r.cols.get k, r.vals.get k) = p := by simp [list]

theorem list_getElem {r : CsrRow R} {k : Nat} (h : k < r.list.length) :
    r.list[k] = (r.cols.get k, r.vals.get k) := by simp [list]

/-- The first entries of two arrays. -/
def pre (cols : Nat → Nat) (vals : Nat → R) (n : Nat) : SRow R :=
  (List.range n).map fun k => (cols k, vals k)

theorem list_eq (r : CsrRow R) : r.list = pre r.cols.get r.vals.get r.nnz := rfl

@[simp] theorem pre_length (c : Nat → Nat) (v : Nat → R) (n : Nat) : (pre c v n).length = n := by
  simp [pre]

@[simp] theorem pre_zero (c : Nat → Nat) (v : Nat → R) : pre c v 0 = [] := rfl

theorem pre_succ (c : Nat → Nat) (v : Nat → R) (n : Nat) :
    pre c v (n + 1) = pre c v n ++ [(c n, v n)] := by simp [pre, List.range_succ]

theorem pre_congr {c c' : Nat → Nat} {v v' : Nat → R} {n : Nat}
    (h : ∀ k, k < n → c k = c' k ∧ v k = v' k) : pre c v n = pre c' v' n := by
  unfold pre
  apply List.map_congr_left
  intro k hk
  have := h k (by simpa using hk)
  rw [this.1, this.2]

theorem pre_upd (c : Nat → Nat) (v : Nat → R) (n j : Nat) (w : R) :
    pre (upd c n j) (upd v n w) (n + 1) = pre c v n ++ [(j, w)] := by
  rw [pre_succ, upd_same, upd_same]
  congr 1
  exact pre_congr (fun k hk => ⟨upd_ne _ _ (by omega), upd_ne _ _ (by omega)⟩)

theorem pre_getElem? (c : Nat → Nat) (v : Nat → R) {n k : Nat} (h : k < n) :
    (pre c v n)[k]? = some (c k, v k) := by
  simp [pre, h]

/-- Walking over a row is walking over its list. -/
theorem fold_eq {σ : Type} {r : CsrRow R} (h : r.WF) (s : σ) (f : Nat → R → σ → Res σ) :
    r.fold s f = forList r.list s (fun p s => f p.1 p.2 s) := by
  unfold fold list
  have key : ∀ n, n ≤ r.nnz → loop n s (fun pos s => do
      let c ← r.cols.read pos
      let v ← r.vals.read pos
      f c v s) = forList ((List.range n).map fun k => (r.cols.get k, r.vals.get k)) s
        (fun p s => f p.1 p.2 s) := by
    intro n
    induction n with
    | zero => intro _; rfl
    | succ n ih =>
      intro hn
      have h1 := h.nnz_le
      rw [loop_succ, ih (by omega), List.range_succ, List.map_append, forList_append]
      congr 1
      funext s'
      rw [Arr.read_ok (by rw [h.cols_size]; omega), Res.bind_ok,
        Arr.read_ok (by rw [h.vals_size]; omega), Res.bind_ok]
      simp only [List.map_cons, List.map_nil, forList_cons, forList_nil]
      cases f (r.cols.get n) (r.vals.get n) s' <;> rfl
  exact key r.nnz (le_refl _)

theorem Is.fold {σ : Type} {r : CsrRow R} {L : SRow R} (h : r.Is L) (s : σ)
    (f : Nat → R → σ → Res σ) : r.fold s f = forList L s (fun p s => f p.1 p.2 s) := by
  rw [fold_eq h.1, h.2]

theorem expand_gt {a : Nat} (h : 10 ≤ a) : a + 1 ≤ expand a := by
  unfold expand; omega

/-- Appending an entry always succeeds. -/
theorem wp_setNew {r : CsrRow R} {L : SRow R} (h : r.Is L) (j : Nat) (v : R) :
    (r.setNew j v).wp E (fun r' => r'.Is (L ++ [(j, v)]) ∧
      r'.alloc = if L.length < r.alloc then r.alloc else expand r.alloc) := by
  obtain ⟨⟨h1, h2, h3, h4⟩, rfl⟩ := h
  have he := expand_gt h4
  unfold setNew
  simp only [list_length]
  by_cases hn : r.nnz + 1 > r.alloc
  · rw [if_pos hn, if_neg (by omega)]
    simp only [Res.wp_bind, Arr.wp_write, Arr.realloc, Res.wp_pure]
    refine ⟨by omega, by omega, ⟨⟨rfl, rfl, by simp only; omega, by simp only; omega⟩, ?_⟩, trivial⟩
    rw [list_eq, list_eq]
    exact pre_upd _ _ _ _ _
  · rw [if_neg hn, if_pos (by omega)]
    simp only [Res.wp_bind, Arr.wp_write, Res.wp_pure]
    refine ⟨by omega, by omega, ⟨⟨h1, h2, by simp only; omega, h4⟩, ?_⟩, trivial⟩
    rw [list_eq, list_eq]
    exact pre_upd _ _ _ _ _

theorem findPos_spec {r : CsrRow R} (h : r.WF) (j : Nat) :
    ∀ fuel p, p + fuel ≤ r.nnz → ∃ o, r.findPos j p fuel = .ok o ∧
      (∀ l, o = some l → p ≤ l ∧ l < p + fuel ∧ r.cols.get l = j ∧
        ∀ k, p ≤ k → k < l → r.cols.get k ≠ j) ∧
      (o = none → ∀ k, p ≤ k → k < p + fuel → r.cols.get k ≠ j) := by
  intro fuel
  induction fuel with
  | zero => intro p _; exact ⟨none, rfl, by simp, fun _ k h1 h2 => by omega⟩
  | succ fuel ih =>
    intro p hp
    have := h.nnz_le
    unfold findPos
    rw [Arr.read_ok (by rw [h.cols_size]; omega), Res.bind_ok]
    by_cases he : r.cols.get p = j
    · rw [if_pos he]
      refine ⟨some p, rfl, ?_, by simp⟩
      rintro l hl
      obtain rfl := Option.some.inj hl
      exact ⟨le_refl _, by omega, he, fun k h1 h2 => by omega⟩
    · rw [if_neg he]
      obtain ⟨o, e, h1, h2⟩ := ih (p + 1) (by omega)
      refine ⟨o, e, ?_, ?_⟩
      · intro l hl
        obtain ⟨a, b, c, d⟩ := h1 l hl
        refine ⟨by omega, by omega, c, fun k hk1 hk2 => ?_⟩
        by_cases hkp : k = p
        · subst hkp; exact he
        · exact d k (by omega) hk2
      · intro hn k hk1 hk2
        by_cases hkp : k = p
        · subst hkp; exact he
        · exact h2 hn k (by omega) (by omega)

/-- The search in terms of the list. -/
theorem find_cases {r : CsrRow R} {L : SRow R} (h : r.Is L) (j : Nat) :
    (r.findPos j 0 r.nnz = .ok none ∧ j ∉ L.map Prod.fst) ∨
    (∃ L1 v L2, r.findPos j 0 r.nnz = .ok (some L1.length) ∧ L = L1 ++ (j, v) :: L2 ∧
      j ∉ L1.map Prod.fst ∧ r.vals.get L1.length = v) := by
  obtain ⟨o, e, h1, h2⟩ := findPos_spec h.1 j r.nnz 0 (by omega)
  cases o with
  | none =>
    left
    refine ⟨e, ?_⟩
    rw [← h.2]
    intro hm
    obtain ⟨p, hp, rfl⟩ := List.mem_map.1 hm
    obtain ⟨k, hk, rfl⟩ := mem_list.1 hp
    exact h2 rfl k (by omega) (by omega) rfl
  | some l =>
    right
    obtain ⟨-, hl, hc, hb⟩ := h1 l rfl
    have hl' : l < r.nnz := by omega
    have hlen : (r.list.take l).length = l := by simp; omega
    refine ⟨r.list.take l, r.vals.get l, r.list.drop (l + 1), by rw [hlen]; exact e, ?_, ?_, by rw [hlen]⟩
    · rw [← h.2, ← hc, ← list_getElem (r := r) (by simpa using hl'), List.getElem_cons_drop,
        List.take_append_drop]
    · intro hm
      obtain ⟨p, hp, he⟩ := List.mem_map.1 hm
      obtain ⟨k, hk, rfl⟩ := List.mem_iff_getElem.1 hp
      rw [hlen] at hk
      rw [List.getElem_take, list_getElem] at he
      exact hb k (by omega) hk he

/-- Overwriting the value at one position. -/
theorem is_updVal {r : CsrRow R} {L1 L2 : SRow R} {c : Nat} {v : R}
    (h : r.Is (L1 ++ (c, v) :: L2)) (w : R) :
    ({ r with vals := ⟨r.vals.size, upd r.vals.get L1.length w⟩ } : CsrRow R).Is
      (L1 ++ (c, w) :: L2) := by
  obtain ⟨⟨h1, h2, h3, h4⟩, hl⟩ := h
  refine ⟨⟨h1, h2, h3, h4⟩, ?_⟩
  have hlen : r.nnz = L1.length + (L2.length + 1) := by
    rw [← list_length, hl]; simp
  apply List.ext_getElem?
  intro k
  have hk := congrArg (fun l => l[k]?) hl
  simp only [list] at hk ⊢
  by_cases hkl : k = L1.length
  · subst hkl
    simp only [List.getElem?_map, List.getElem?_range (show L1.length < r.nnz by omega),
      Option.map_some, List.getElem?_append_right (le_refl _), Nat.sub_self,
      List.getElem?_cons_zero, Option.some.injEq, Prod.mk.injEq] at hk ⊢
    exact ⟨hk.1, by rw [upd_same]⟩
  · have e1 : (L1 ++ (c, w) :: L2)[k]? = (L1 ++ (c, v) :: L2)[k]? := by
      by_cases hlt : k < L1.length
      · rw [List.getElem?_append_left hlt, List.getElem?_append_left hlt]
      · rw [List.getElem?_append_right (by omega), List.getElem?_append_right (by omega)]
        obtain ⟨m, hm⟩ : ∃ m, k - L1.length = m + 1 := ⟨k - L1.length - 1, by omega⟩
        rw [hm, List.getElem?_cons_succ, List.getElem?_cons_succ]
    rw [e1, ← hk]
    simp only [List.getElem?_map]
    by_cases hkn : k < r.nnz
    · rw [List.getElem?_range hkn]; simp [upd_ne _ _ hkl]
    · rw [List.getElem?_eq_none (by simpa using hkn)]; rfl

theorem Is.vals_lt {r : CsrRow R} {L1 L2 : SRow R} {p : Nat × R}
    (h : r.Is (L1 ++ p :: L2)) : L1.length < r.vals.size := by
  have := h.length
  have h2 := h.nnz_le
  rw [h.vals_size]
  simp at this
  omega

/-- `csr_set_row_element`. -/
theorem wp_set {r : CsrRow R} {L : SRow R} (h : r.Is L) (j : Nat) (v : R) :
    (r.set j v).wp E (fun r' =>
      (j ∉ L.map Prod.fst ∧ r'.Is (L ++ [(j, v)])) ∨
      (∃ L1 w L2, L = L1 ++ (j, w) :: L2 ∧ j ∉ L1.map Prod.fst ∧ r'.Is (L1 ++ (j, v) :: L2))) := by
  unfold set
  rcases find_cases h j with ⟨e, hn⟩ | ⟨L1, w, L2, e, rfl, hn, hv⟩
  · rw [e, Res.bind_ok]
    exact Res.wp_mono (wp_setNew h j v) (fun r' hr => Or.inl ⟨hn, hr.1⟩)
  · rw [e, Res.bind_ok]
    simp only [Res.wp_bind, Arr.wp_write, Res.wp_pure]
    exact ⟨h.vals_lt, Or.inr ⟨L1, w, L2, rfl, hn, is_updVal h v⟩⟩

end CsrRow

namespace SRow

variable {R : Type} [AddCommMonoid R]

omit [AddCommMonoid R] in
theorem Good.replace {N : Nat} {L1 L2 : SRow R} {c : Nat} {v : R} (h : Good N (L1 ++ (c, v) :: L2))
    (w : R) : Good N (L1 ++ (c, w) :: L2) := by
  refine ⟨by simpa using h.1, ?_⟩
  intro p hp
  simp only [List.mem_append, List.mem_cons] at hp
  rcases hp with hp | rfl | hp
  · exact h.2 p (by simp [hp])
  · exact h.2 (c, v) (by simp)
  · exact h.2 p (by simp [hp])

omit [AddCommMonoid R] in
theorem Good.not_mem {N : Nat} {L1 L2 : SRow R} {c : Nat} {v : R}
    (h : Good N (L1 ++ (c, v) :: L2)) : c ∉ L1.map Prod.fst ∧ c ∉ L2.map Prod.fst := by
  have := h.1
  simp only [List.map_append, List.map_cons, List.nodup_append, List.nodup_cons] at this
  refine ⟨fun hm => this.2.2 c hm c (by simp) rfl, this.2.1.1⟩

theorem den_replace {N : Nat} {L1 L2 : SRow R} {c : Nat} {v : R}
    (h : Good N (L1 ++ (c, v) :: L2)) (w : R) (j : Nat) :
    den (L1 ++ (c, w) :: L2) j = if j = c then w else den (L1 ++ (c, v) :: L2) j := by
  obtain ⟨h1, h2⟩ := h.not_mem
  by_cases hj : j = c
  · subst hj
    simp [den_of_not_mem h1, den_of_not_mem h2]
  · rw [if_neg hj]
    simp [Ne.symm hj]

theorem den_at {N : Nat} {L1 L2 : SRow R} {c : Nat} {v : R}
    (h : Good N (L1 ++ (c, v) :: L2)) : den (L1 ++ (c, v) :: L2) c = v :=
  den_of_mem h.1 (by simp)

end SRow

namespace CsrRow

variable {R : Type} [CommRing R] {E : Prop}

/-- A well-formed row whose entries have distinct columns below `N` and values `g`. -/
def Holds (r : CsrRow R) (N : Nat) (g : Nat → R) : Prop :=
  r.WF ∧ SRow.Good N r.list ∧ ∀ j, j < N → r.list.den j = g j

theorem Holds.is {r : CsrRow R} {N : Nat} {g : Nat → R} (h : r.Holds N g) : r.Is r.list :=
  ⟨h.1, rfl⟩

theorem Is.holds {r : CsrRow R} {N : Nat} {g : Nat → R} {L : SRow R} (h : r.Is L)
    (hg : SRow.Good N L) (hd : ∀ j, j < N → L.den j = g j) : r.Holds N g := by
  obtain ⟨hw, rfl⟩ := h
  exact ⟨hw, hg, hd⟩

theorem Holds.congr {r : CsrRow R} {N : Nat} {g g' : Nat → R} (h : r.Holds N g)
    (he : ∀ j, j < N → g j = g' j) : r.Holds N g' :=
  ⟨h.1, h.2.1, fun j hj => (h.2.2 j hj).trans (he j hj)⟩

theorem get_eq {r : CsrRow R} {N : Nat} {g : Nat → R} (h : r.Holds N g) {j : Nat} (hj : j < N) :
    r.get j = .ok (g j) := by
  unfold get
  rw [if_neg (by omega)]
  simp only [Int.toNat_natCast]
  rw [← h.2.2 j hj]
  rcases find_cases h.is j with ⟨e, hn⟩ | ⟨L1, w, L2, e, hL, hn, hv⟩
  · rw [e, Res.bind_ok, SRow.den_of_not_mem hn]; rfl
  · rw [e, Res.bind_ok]
    have hi := h.is
    have hg := h.2.1
    rw [hL] at hi hg
    simp only
    rw [Arr.read_ok hi.vals_lt, hv, hL, SRow.den_at hg]

/-- Out of range columns read as zero. -/
theorem get_out {r : CsrRow R} {N : Nat} {g : Nat → R} (h : r.Holds N g) {j : Nat} (hj : N ≤ j) :
    r.get j = .ok 0 := by
  unfold get
  rw [if_neg (by omega)]
  simp only [Int.toNat_natCast]
  rcases find_cases h.is j with ⟨e, hn⟩ | ⟨L1, w, L2, e, hL, hn, hv⟩
  · rw [e, Res.bind_ok]; rfl
  · have := h.2.1.2 (j, w) (by rw [hL]; simp)
    simp only at this
    omega

theorem wp_set_holds {r : CsrRow R} {N : Nat} {g : Nat → R} (h : r.Holds N g) {j : Nat} (hj : j < N)
    (v : R) : (r.set j v).wp E (fun r' => r'.Holds N (fun k => if k = j then v else g k)) := by
  refine Res.wp_mono (wp_set h.is j v) ?_
  rintro r' (⟨hn, hr⟩ | ⟨L1, w, L2, hL, hn, hr⟩)
  · refine hr.holds (h.2.1.append_singleton hj hn) ?_
    intro k hk
    rw [SRow.den_append, SRow.den_cons, SRow.den_nil, add_zero, h.2.2 k hk]
    by_cases hkj : k = j
    · subst hkj
      rw [if_pos rfl, if_pos rfl, ← h.2.2 k hk, SRow.den_of_not_mem hn, zero_add]
    · rw [if_neg (Ne.symm hkj), if_neg hkj, add_zero]
  · have hg := h.2.1
    rw [hL] at hg
    refine hr.holds (hg.replace v) ?_
    intro k hk
    rw [SRow.den_replace hg, ← hL, h.2.2 k hk]

theorem wp_setNew_holds {r : CsrRow R} {N : Nat} {g : Nat → R} (h : r.Holds N g) {j : Nat}
    (hj : j < N) (hn : j ∉ r.list.map Prod.fst) (v : R) :
    (r.setNew j v).wp E (fun r' => r'.Holds N (fun k => if k = j then v else g k)) := by
  refine Res.wp_mono (wp_setNew h.is j v) ?_
  rintro r' ⟨hr, -⟩
  refine hr.holds (h.2.1.append_singleton hj hn) ?_
  intro k hk
  rw [SRow.den_append, SRow.den_cons, SRow.den_nil, add_zero, h.2.2 k hk]
  by_cases hkj : k = j
  · subst hkj
    rw [if_pos rfl, if_pos rfl, ← h.2.2 k hk, SRow.den_of_not_mem hn, zero_add]
  · rw [if_neg (Ne.symm hkj), if_neg hkj, add_zero]

end CsrRow

namespace Csr

variable {R : Type} {E : Prop}

/-- A well-formed CSR matrix: `N` row objects, each well-formed, with distinct column indices below
`N`. -/
structure WF (A : Csr R) : Prop where
  size : A.data.size = A.N
  row : ∀ i, i < A.N → (A.data.get i).WF
  col_lt : ∀ i k, i < A.N → k < (A.data.get i).nnz → (A.data.get i).cols.get k < A.N
  col_inj : ∀ i k k', i < A.N → k < (A.data.get i).nnz → k' < (A.data.get i).nnz →
    (A.data.get i).cols.get k = (A.data.get i).cols.get k' → k = k'

/-- `A` is a well-formed `N × N` matrix and `bml_get_element` returns `a i j` for all
`i, j < N`. -/
structure Represents [Zero R] (A : Csr R) (N : Nat) (a : Spec.Mat R) : Prop where
  wf : A.WF
  dim : A.N = N
  get : ∀ i j : Nat, i < N → j < N → A.getElement i j = .ok (a i j)

/-- Row `i` of `A` holds an entry for column `j`. -/
def Stored (A : Csr R) (i j : Nat) : Prop :=
  ∃ k, k < (A.data.get i).nnz ∧ (A.data.get i).cols.get k = j

instance (A : Csr R) (i j : Nat) : Decidable (A.Stored i j) := by
  unfold Stored; infer_instance

/-- The stored entries of row `i`. -/
def row (A : Csr R) (i : Nat) : SRow R := (A.data.get i).list

theorem stored_iff {A : Csr R} {i j : Nat} : A.Stored i j ↔ j ∈ (A.row i).map Prod.fst := by
  simp only [Stored, row, List.mem_map]
  constructor
  · rintro ⟨k, hk, he⟩
    exact ⟨_, CsrRow.mem_list.2 ⟨k, hk, rfl⟩, he⟩
  · rintro ⟨p, hp, he⟩
    obtain ⟨k, hk, rfl⟩ := CsrRow.mem_list.1 hp
    exact ⟨k, hk, he⟩

theorem WF.good {A : Csr R} (h : A.WF) {i : Nat} (hi : i < A.N) : SRow.Good A.N (A.row i) := by
  constructor
  · unfold Csr.row CsrRow.list
    rw [List.map_map]
    refine List.Nodup.map_on ?_ List.nodup_range
    intro k hk k' hk' he
    exact h.col_inj i k k' hi (by simpa using hk) (by simpa using hk') he
  · intro p hp
    obtain ⟨k, hk, rfl⟩ := CsrRow.mem_list.1 hp
    exact h.col_lt i k hi hk

section
variable [CommRing R]

/-- The internal form of `Represents`. -/
structure Rep (A : Csr R) (N : Nat) (a : Spec.Mat R) : Prop where
  dim : A.N = N
  size : A.data.size = N
  holds : ∀ i, i < N → (A.data.get i).Holds N (a i)

theorem Rep.congr {A : Csr R} {N : Nat} {a b : Spec.Mat R} (h : A.Rep N a) (hab : Spec.Eq N a b) :
    A.Rep N b :=
  ⟨h.dim, h.size, fun i hi => (h.holds i hi).congr (fun j hj => hab i j hi hj)⟩

theorem getElement_eq {A : Csr R} {N : Nat} {a : Spec.Mat R} (h : A.Rep N a) {i j : Nat}
    (hi : i < N) (hj : j < N) : A.getElement i j = .ok (a i j) := by
  unfold getElement
  rw [if_neg (by rw [h.dim]; omega)]
  simp only [Int.toNat_natCast]
  rw [Arr.read_ok (by rw [h.size]; exact hi), Res.bind_ok, CsrRow.get_eq (h.holds i hi) hj]

theorem Rep.good {A : Csr R} {N : Nat} {a : Spec.Mat R} (h : A.Rep N a) {i : Nat} (hi : i < N) :
    SRow.Good N (A.row i) := (h.holds i hi).2.1

theorem Rep.den {A : Csr R} {N : Nat} {a : Spec.Mat R} (h : A.Rep N a) {i j : Nat} (hi : i < N)
    (hj : j < N) : (A.row i).den j = a i j := (h.holds i hi).2.2 j hj

theorem Rep.is {A : Csr R} {N : Nat} {a : Spec.Mat R} (h : A.Rep N a) {i : Nat} (hi : i < N) :
    (A.data.get i).Is (A.row i) := (h.holds i hi).is

theorem Rep.read {A : Csr R} {N : Nat} {a : Spec.Mat R} (h : A.Rep N a) {i : Nat} (hi : i < N) :
    A.data.read i = .ok (A.data.get i) := Arr.read_ok (by rw [h.size]; exact hi)

theorem represents_iff {A : Csr R} {N : Nat} {a : Spec.Mat R} :
    A.Represents N a ↔ A.Rep N a := by
  constructor
  · rintro ⟨wf, rfl, get⟩
    have hr : A.Rep A.N (fun i j => (A.row i).den j) :=
      ⟨rfl, wf.size, fun i hi => ⟨wf.row i hi, wf.good hi, fun j hj => rfl⟩⟩
    refine hr.congr ?_
    intro i j hi hj
    have h1 := get i j hi hj
    rw [getElement_eq hr hi hj] at h1
    exact Res.ok.inj h1
  · intro h
    have hd := h.dim
    refine ⟨⟨by rw [h.size, hd], fun i hi => (h.holds i (hd ▸ hi)).1, ?_, ?_⟩, hd,
      fun i j hi hj => getElement_eq h hi hj⟩
    · intro i k hi hk
      rw [hd] at hi ⊢
      exact (h.good hi).2 _ (CsrRow.mem_list.2 ⟨k, hk, rfl⟩)
    · intro i k k' hi hk hk' he
      rw [hd] at hi
      have hn := (h.good hi).1
      unfold Csr.row CsrRow.list at hn
      rw [List.map_map] at hn
      exact List.inj_on_of_nodup_map hn (by simpa using hk) (by simpa using hk') he

/-! ## Loops over the rows -/

omit [CommRing R] in
/-- One row. -/
theorem wp_onRow {A : Csr R} {i : Nat} (hi : i < A.data.size) {f : CsrRow R → Res (CsrRow R)}
    {Q : CsrRow R → Prop} (hf : (f (A.data.get i)).wp E Q) :
    (A.onRow i f).wp E (fun A' => A'.N = A.N ∧ A'.M = A.M ∧ A'.data.size = A.data.size ∧
      Q (A'.data.get i) ∧ ∀ j, j ≠ i → A'.data.get j = A.data.get j) := by
  unfold onRow
  rw [Arr.read_ok hi, Res.bind_ok, Res.wp_bind]
  refine Res.wp_mono hf ?_
  intro r hr
  rw [Res.wp_bind, Arr.wp_write]
  refine ⟨hi, rfl, rfl, rfl, by simpa using hr, fun j hj => upd_ne _ _ hj⟩

omit [CommRing R] in
/-- Loops that update every row by itself. -/
theorem wp_forRows {A : Csr R} {N : Nat} {sc : Sched} (hsc : IsSched 0 N sc) (hs : A.data.size = N)
    {f : Nat → CsrRow R → Res (CsrRow R)} (P : Nat → CsrRow R → Prop) (Q : Nat → CsrRow R → Prop)
    (hP : ∀ i, i < N → P i (A.data.get i))
    (hf : ∀ i r, i < N → P i r → (f i r).wp E (Q i)) :
    (A.forRows sc f).wp E (fun A' => A'.N = A.N ∧ A'.M = A.M ∧ A'.data.size = N ∧
      ∀ i, i < N → Q i (A'.data.get i)) := by
  unfold forRows
  refine Res.wp_mono (wp_rows hsc
    (fun A' : Csr R => A'.N = A.N ∧ A'.M = A.M ∧ A'.data.size = N)
    (fun i A' => P i (A'.data.get i)) (fun i A' => Q i (A'.data.get i))
    ⟨rfl, rfl, hs⟩ (fun i _ hi => hP i hi) ?_) ?_
  · rintro t i A' - hi ⟨g1, g2, g3⟩ hPi
    refine Res.wp_mono (wp_onRow (f := f i) (Q := Q i) (by rw [g3]; exact hi) (hf i _ hi hPi)) ?_
    rintro A2 ⟨k1, k2, k3, k4, k5⟩
    refine ⟨⟨k1.trans g1, k2.trans g2, k3.trans g3⟩, k4, ?_⟩
    intro j _ _ hne
    rw [k5 j hne]
    exact ⟨id, id⟩
  · rintro A' ⟨⟨g1, g2, g3⟩, h⟩
    exact ⟨g1, g2, g3, fun i hi => h i (Nat.zero_le _) hi⟩

theorem wp_forRowsS {S T : Type} [AddCommMonoid T] {A : Csr R} {N : Nat} {sc : Sched}
    (hsc : IsSched 0 N sc) (hs : A.data.size = N)
    {f : Nat → CsrRow R → S → T → Res (CsrRow R × S × T)} {s : S} {t : T} (I : S → Prop)
    (P : Nat → CsrRow R → Prop) (Q : Nat → CsrRow R → Prop) (tv : Nat → T)
    (hI : I s) (hP : ∀ i, i < N → P i (A.data.get i))
    (hf : ∀ i r s t, i < N → P i r → I s →
      (f i r s t).wp E (fun st => Q i st.1 ∧ I st.2.1 ∧ st.2.2 = t + tv i)) :
    (A.forRowsS sc s t f).wp E (fun st => st.1.N = A.N ∧ st.1.M = A.M ∧ st.1.data.size = N ∧
      (∀ i, i < N → Q i (st.1.data.get i)) ∧ st.2 = t + ∑ i ∈ Finset.range N, tv i) := by
  unfold forRowsS
  rw [Res.wp_bind]
  refine Res.wp_mono (wp_rowsD hsc
    (fun done (st : Csr R × (Nat → S) × T) => st.1.N = A.N ∧ st.1.M = A.M ∧ st.1.data.size = N ∧
      (∀ th, I (st.2.1 th)) ∧ st.2.2 = t + (done.map tv).sum)
    (fun i st => P i (st.1.data.get i)) (fun i st => Q i (st.1.data.get i))
    ⟨rfl, rfl, hs, fun _ => hI, by simp⟩ (fun i _ hi => hP i hi) ?_) ?_
  · rintro done th i ⟨A', ss, t'⟩ - hi ⟨g1, g2, g3, g4, g5⟩ hPi
    simp only at g1 g2 g3 g4 g5 hPi
    simp only
    rw [Arr.read_ok (by rw [g3]; exact hi), Res.bind_ok, Res.wp_bind]
    refine Res.wp_mono (hf i _ (ss th) t' hi hPi (g4 th)) ?_
    rintro ⟨r, s', t2⟩ ⟨k1, k2, k3⟩
    simp only at k1 k2 k3
    simp only [Res.wp_bind, Arr.wp_write, Res.wp_pure]
    refine ⟨by rw [g3]; exact hi, ⟨g1, g2, g3, ?_, ?_⟩, by simpa using k1, ?_⟩
    · intro th'
      by_cases h : th' = th
      · subst h; simpa using k2
      · rw [upd_ne _ _ h]; exact g4 th'
    · rw [k3, g5]; simp [add_assoc]
    · intro j _ _ hne
      rw [upd_ne _ _ hne]
      exact ⟨id, id⟩
  · rintro ⟨A', ss, t'⟩ ⟨⟨g1, g2, g3, g4, g5⟩, h⟩
    simp only [Res.wp_pure]
    refine ⟨g1, g2, g3, fun i hi => h i (Nat.zero_le _) hi, ?_⟩
    simp only at g5
    rw [g5, hsc.sum_eq, Finset.range_eq_Ico]

/-- Loops that change the matrix row by row, in terms of represented matrices. -/
theorem wp_forRows_rep {A : Csr R} {N : Nat} {a b : Spec.Mat R} {sc : Sched}
    (hsc : IsSched 0 N sc) (hA : A.Rep N a) {f : Nat → CsrRow R → Res (CsrRow R)}
    (hf : ∀ i r, i < N → r.Holds N (a i) → (f i r).wp E (fun r' => r'.Holds N (b i))) :
    (A.forRows sc f).wp E (fun A' => A'.M = A.M ∧ A'.Rep N b) := by
  refine Res.wp_mono (wp_forRows hsc hA.size (fun i r => r.Holds N (a i))
    (fun i r => r.Holds N (b i)) hA.holds hf) ?_
  rintro A' ⟨h1, h2, h3, h4⟩
  exact ⟨h2, h1.trans hA.dim, h3, h4⟩

end

end Csr

end Bml
