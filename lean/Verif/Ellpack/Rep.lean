import Verif.Ellpack.Model

/-!
# What it means for an ELLPACK matrix to represent a mathematical matrix
-/

namespace Bml

namespace Ell

variable {R : Type}

/-- A well-formed ELLPACK matrix: the arrays have the allocated lengths, no row holds more
than `M` entries, stored columns are valid and no column is stored twice in a row. -/
structure WF (A : Ell R) : Prop where
  val_size : A.val.size = A.N * A.M
  idx_size : A.idx.size = A.N * A.M
  nnz_size : A.nnz.size = A.N
  nnz_le : ∀ i, i < A.N → A.nnz.get i ≤ A.M
  col_lt : ∀ i k, i < A.N → k < A.nnz.get i → A.idx.get (i * A.M + k) < A.N
  col_inj : ∀ i k k', i < A.N → k < A.nnz.get i → k' < A.nnz.get i →
    A.idx.get (i * A.M + k) = A.idx.get (i * A.M + k') → k = k'

/-- `A` is a well-formed `N × N` matrix and `bml_get_element` returns `a i j` for all
`i, j < N`. -/
structure Represents [Zero R] (A : Ell R) (N : Nat) (a : Spec.Mat R) : Prop where
  wf : A.WF
  dim : A.N = N
  get : ∀ i j : Nat, i < N → j < N → A.getElement i j = .ok (a i j)

/-! ## Rows as lists -/

/-- The first `n` stored entries of row `i`. -/
def rowPre (A : Ell R) (i n : Nat) : SRow R :=
  (List.range n).map fun k => (A.idx.get (i * A.M + k), A.val.get (i * A.M + k))

/-- The stored entries of row `i`. -/
def row (A : Ell R) (i : Nat) : SRow R := A.rowPre i (A.nnz.get i)

/-- The arrays have the allocated lengths. -/
structure Shape (A : Ell R) : Prop where
  val_size : A.val.size = A.N * A.M
  idx_size : A.idx.size = A.N * A.M
  nnz_size : A.nnz.size = A.N

/-- Row `i` of `A` is stored properly, and its list of entries is `L`. -/
def RowIs (A : Ell R) (i : Nat) (L : SRow R) : Prop := A.nnz.get i ≤ A.M ∧ A.row i = L

@[simp] theorem rowPre_length (A : Ell R) (i n : Nat) : (A.rowPre i n).length = n := by
  simp [rowPre]

@[simp] theorem row_length (A : Ell R) (i : Nat) : (A.row i).length = A.nnz.get i := by
  simp [row]

@[simp] theorem rowPre_zero (A : Ell R) (i : Nat) : A.rowPre i 0 = [] := rfl

theorem rowPre_succ (A : Ell R) (i n : Nat) :
    A.rowPre i (n + 1)
      = A.rowPre i n ++ [(A.idx.get (i * A.M + n), A.val.get (i * A.M + n))] := by
  simp [rowPre, List.range_succ]

theorem mem_rowPre {A : Ell R} {i n : Nat} {p : Nat × R} :
    p ∈ A.rowPre i n ↔
      ∃ k, k < n ∧ (A.idx.get (i * A.M + k), A.val.get (i * A.M + k)) = p := by
  simp [rowPre]

theorem WF.shape {A : Ell R} (h : A.WF) : A.Shape := ⟨h.val_size, h.idx_size, h.nnz_size⟩

theorem WF.good {A : Ell R} (h : A.WF) {i : Nat} (hi : i < A.N) : SRow.Good A.N (A.row i) := by
  constructor
  · unfold row rowPre
    rw [List.map_map]
    refine List.Nodup.map_on ?_ List.nodup_range
    intro k hk k' hk' he
    exact h.col_inj i k k' hi (by simpa using hk) (by simpa using hk') he
  · intro p hp
    obtain ⟨k, hk, rfl⟩ := mem_rowPre.1 hp
    exact h.col_lt i k hi hk

theorem wf_of_good {A : Ell R} (hs : A.Shape) (hle : ∀ i, i < A.N → A.nnz.get i ≤ A.M)
    (hg : ∀ i, i < A.N → SRow.Good A.N (A.row i)) : A.WF where
  val_size := hs.val_size
  idx_size := hs.idx_size
  nnz_size := hs.nnz_size
  nnz_le := hle
  col_lt := fun i k hi hk => (hg i hi).2 _ (mem_rowPre.2 ⟨k, hk, rfl⟩)
  col_inj := by
    intro i k k' hi hk hk' he
    have hn := (hg i hi).1
    unfold row rowPre at hn
    rw [List.map_map] at hn
    exact List.inj_on_of_nodup_map hn (by simpa using hk) (by simpa using hk') he

/-- What `findFrom` returns, on the list level. -/
theorem findFrom_eq [Zero R] {A : Ell R} (hs : A.Shape) {i j : Nat} (hi : i < A.N) :
    ∀ (fuel p : Nat), p + fuel ≤ A.M →
      A.findFrom i j p fuel = .ok (((A.rowPre i (p + fuel)).drop p).find?
        (fun q => decide (q.1 = j)) |>.elim 0 Prod.snd) := by
  intro fuel
  induction fuel with
  | zero =>
    intro p _
    rw [Nat.add_zero, List.drop_eq_nil_of_le (by simp)]
    rfl
  | succ fuel ih =>
    intro p hp
    have hadr : i * A.M + p < A.N * A.M := addr_lt hi (by omega)
    have hidx : A.idx.read (ROWMAJOR i p A.N A.M) = .ok (A.idx.get (i * A.M + p)) :=
      Arr.read_ok (by rw [hs.idx_size]; exact hadr)
    have hval : A.val.read (ROWMAJOR i p A.N A.M) = .ok (A.val.get (i * A.M + p)) :=
      Arr.read_ok (by rw [hs.val_size]; exact hadr)
    have hdrop : (A.rowPre i (p + (fuel + 1))).drop p
        = (A.idx.get (i * A.M + p), A.val.get (i * A.M + p))
          :: (A.rowPre i (p + 1 + fuel)).drop (p + 1) := by
      rw [show p + (fuel + 1) = p + 1 + fuel by ring]
      rw [List.drop_eq_getElem_cons (by simp; omega)]
      simp [rowPre]
    rw [hdrop]
    simp only [findFrom, hidx, Res.bind_ok, hval]
    by_cases hk : A.idx.get (i * A.M + p) = j
    · simp [hk]
    · rw [if_neg hk, ih (p + 1) (by omega)]
      simp [hk]

/-- What `bml_get_element` returns: the first stored value of column `j`, or zero. -/
theorem getElement_first [Zero R] {A : Ell R} (hs : A.Shape) {i j : Nat} (hi : i < A.N)
    (hj : j < A.N) (hle : A.nnz.get i ≤ A.M) :
    A.getElement i j = .ok (((A.row i).find? (fun q => decide (q.1 = j))).elim 0 Prod.snd) := by
  unfold getElement
  rw [if_neg (by omega), if_neg (by omega)]
  have : A.nnz.read (Int.toNat i) = .ok (A.nnz.get i) := by
    simpa using Arr.read_ok (a := A.nnz) (i := i) (by rw [hs.nnz_size]; exact hi)
  rw [this]
  simp only [Int.toNat_natCast, Res.bind_ok]
  rw [findFrom_eq hs hi _ 0 (by omega)]
  simp only [Nat.zero_add, List.drop_zero]
  rfl

section
variable [CommRing R]

/-- The internal form of `Represents`, in terms of row lists. -/
structure Rep (A : Ell R) (N : Nat) (a : Spec.Mat R) : Prop where
  shape : A.Shape
  dim : A.N = N
  le : ∀ i, i < N → A.nnz.get i ≤ A.M
  good : ∀ i, i < N → SRow.Good N (A.row i)
  den : ∀ i j, i < N → j < N → (A.row i).den j = a i j

theorem find_den {N : Nat} {L : SRow R} (hg : SRow.Good N L) (j : Nat) :
    (L.find? (fun q => decide (q.1 = j))).elim 0 Prod.snd = L.den j := by
  cases h : L.find? (fun q => decide (q.1 = j)) with
  | none =>
    have : j ∉ L.map Prod.fst := by
      intro hm
      obtain ⟨p, hp, rfl⟩ := List.mem_map.1 hm
      have := List.find?_eq_none.1 h p hp
      simp at this
    rw [SRow.den_of_not_mem this]; rfl
  | some q =>
    have h1 := List.mem_of_find?_eq_some h
    have h2 := List.find?_some h
    simp only [decide_eq_true_eq] at h2
    obtain ⟨a, b⟩ := q
    simp only at h2
    subst h2
    exact (SRow.den_of_mem hg.1 h1).symm

theorem getElement_eq {A : Ell R} (hs : A.Shape) {i j : Nat} (hi : i < A.N) (hj : j < A.N)
    (hle : A.nnz.get i ≤ A.M) (hg : SRow.Good A.N (A.row i)) :
    A.getElement i j = .ok ((A.row i).den j) := by
  rw [getElement_first hs hi hj hle, find_den hg j]

theorem represents_iff {A : Ell R} {N : Nat} {a : Spec.Mat R} :
    A.Represents N a ↔ A.Rep N a := by
  constructor
  · rintro ⟨wf, rfl, get⟩
    refine ⟨wf.shape, rfl, wf.nnz_le, fun i hi => wf.good hi, ?_⟩
    intro i j hi hj
    have h1 := get i j hi hj
    rw [getElement_eq wf.shape hi hj (wf.nnz_le i hi) (wf.good hi)] at h1
    exact Res.ok.inj h1
  · rintro ⟨hs, rfl, hle, hg, hd⟩
    refine ⟨wf_of_good hs hle hg, rfl, ?_⟩
    intro i j hi hj
    rw [getElement_eq hs hi hj (hle i hi) (hg i hi), hd i j hi hj]

end

/-! ## Storing an entry -/

/-- The matrix after a successful `putEntry`. -/
def put (A : Ell R) (i p k : Nat) (v : R) : Ell R :=
  { A with val := ⟨A.val.size, upd A.val.get (i * A.M + p) v⟩,
           idx := ⟨A.idx.size, upd A.idx.get (i * A.M + p) k⟩ }

/-- The matrix after a successful `setNnz`. -/
def withNnz (A : Ell R) (i n : Nat) : Ell R := { A with nnz := ⟨A.nnz.size, upd A.nnz.get i n⟩ }

@[simp] theorem put_N (A : Ell R) (i p k : Nat) (v : R) : (A.put i p k v).N = A.N := rfl
@[simp] theorem put_M (A : Ell R) (i p k : Nat) (v : R) : (A.put i p k v).M = A.M := rfl
@[simp] theorem put_nnz (A : Ell R) (i p k : Nat) (v : R) : (A.put i p k v).nnz = A.nnz := rfl
@[simp] theorem withNnz_N (A : Ell R) (i n : Nat) : (A.withNnz i n).N = A.N := rfl
@[simp] theorem withNnz_M (A : Ell R) (i n : Nat) : (A.withNnz i n).M = A.M := rfl
@[simp] theorem withNnz_idx (A : Ell R) (i n : Nat) : (A.withNnz i n).idx = A.idx := rfl
@[simp] theorem withNnz_val (A : Ell R) (i n : Nat) : (A.withNnz i n).val = A.val := rfl
@[simp] theorem withNnz_nnz (A : Ell R) (i n : Nat) :
    (A.withNnz i n).nnz.get = upd A.nnz.get i n := rfl
@[simp] theorem withNnz_rowPre (A : Ell R) (i n i' m : Nat) :
    (A.withNnz i n).rowPre i' m = A.rowPre i' m := rfl

theorem Shape.put {A : Ell R} (h : A.Shape) (i p k : Nat) (v : R) : (A.put i p k v).Shape :=
  ⟨h.val_size, h.idx_size, h.nnz_size⟩

theorem Shape.withNnz {A : Ell R} (h : A.Shape) (i n : Nat) : (A.withNnz i n).Shape :=
  ⟨h.val_size, h.idx_size, h.nnz_size⟩

theorem withNnz_row_same (A : Ell R) (i n : Nat) : (A.withNnz i n).row i = A.rowPre i n := by
  simp [row, upd_same]

theorem withNnz_row_ne (A : Ell R) {i i' : Nat} (n : Nat) (h : i' ≠ i) :
    (A.withNnz i n).row i' = A.row i' := by
  simp [row, upd_ne _ _ h]

theorem put_rowPre (A : Ell R) {i p k : Nat} {v : R} (hp : p < A.M) {i' m : Nat} (hm : m ≤ A.M)
    (h : i' ≠ i ∨ m ≤ p) : (A.put i p k v).rowPre i' m = A.rowPre i' m := by
  unfold rowPre
  apply List.map_congr_left
  intro q hq
  have hq : q < m := by simpa using hq
  have hne : i' * A.M + q ≠ i * A.M + p := by
    intro he
    have := addr_inj (by omega) hp he
    omega
  simp [put, upd_ne _ _ hne]

theorem put_rowPre_succ (A : Ell R) {i p k : Nat} {v : R} (hp : p < A.M) :
    (A.put i p k v).rowPre i (p + 1) = A.rowPre i p ++ [(k, v)] := by
  rw [rowPre_succ, put_rowPre A hp (by omega) (Or.inr (le_refl _))]
  simp [put]

section

theorem putEntry_eq {A : Ell R} (hs : A.Shape) {i p : Nat} (k : Nat) (v : R) (hi : i < A.N)
    (hp : p < A.M) : A.putEntry i p k v = .ok (A.put i p k v) := by
  have := addr_lt hi hp
  unfold putEntry
  rw [Arr.write_ok _ (by rw [hs.val_size]; exact this), Res.bind_ok,
    Arr.write_ok _ (by rw [hs.idx_size]; exact this)]
  rfl

theorem setNnz_eq {A : Ell R} (hs : A.Shape) {i : Nat} (n : Nat) (hi : i < A.N) :
    A.setNnz i n = .ok (A.withNnz i n) := by
  unfold setNnz
  rw [Arr.write_ok _ (by rw [hs.nnz_size]; exact hi)]
  rfl

theorem read_nnz {A : Ell R} (hs : A.Shape) {i : Nat} (hi : i < A.N) :
    A.nnz.read i = .ok (A.nnz.get i) := Arr.read_ok (by rw [hs.nnz_size]; exact hi)

theorem read_idx {A : Ell R} (hs : A.Shape) {i k : Nat} (hi : i < A.N) (hk : k < A.M) :
    A.idx.read (ROWMAJOR i k A.N A.M) = .ok (A.idx.get (i * A.M + k)) :=
  Arr.read_ok (by rw [hs.idx_size]; exact addr_lt hi hk)

theorem read_val {A : Ell R} (hs : A.Shape) {i k : Nat} (hi : i < A.N) (hk : k < A.M) :
    A.val.read (ROWMAJOR i k A.N A.M) = .ok (A.val.get (i * A.M + k)) :=
  Arr.read_ok (by rw [hs.val_size]; exact addr_lt hi hk)

end

end Ell

end Bml
