import Verif.Ellpack.OfRows

/-!
# Stored positions, histories of element writes
-/

namespace Bml

namespace Ell

variable {R : Type}

/-- Row `i` of `A` holds an entry for column `j`. -/
def Stored (A : Ell R) (i j : Nat) : Prop :=
  ∃ k, k < A.nnz.get i ∧ A.idx.get (i * A.M + k) = j

instance (A : Ell R) (i j : Nat) : Decidable (A.Stored i j) := by
  unfold Stored; infer_instance

theorem stored_iff {A : Ell R} {i j : Nat} : A.Stored i j ↔ j ∈ (A.row i).map Prod.fst := by
  simp only [Stored, List.mem_map]
  constructor
  · rintro ⟨k, hk, he⟩
    exact ⟨_, mem_rowPre.2 ⟨k, hk, rfl⟩, he⟩
  · rintro ⟨p, hp, he⟩
    obtain ⟨k, hk, rfl⟩ := mem_rowPre.1 hp
    exact ⟨k, hk, he⟩

/-- The number of columns that row `i` of the product `A*B` can touch: the columns `j` for
which some `A(i,k)`, `B(k,j)` are both stored. -/
def productFill (A B : Ell R) (N i : Nat) : Nat :=
  ((Finset.range N).filter (fun j => ∃ k, k < N ∧ A.Stored i k ∧ B.Stored k j)).card

variable [CommRing R]

/-- A new entry at the end of row `i`. -/
def app (A : Ell R) (i j : Nat) (v : R) : Ell R :=
  (A.put i (A.nnz.get i) j v).withNnz i (A.nnz.get i + 1)

theorem app_shape {A : Ell R} (h : A.Shape) (i j : Nat) (v : R) : (A.app i j v).Shape :=
  (h.put _ _ _ _).withNnz _ _

theorem app_row {A : Ell R} {i j : Nat} {v : R} (hcap : A.nnz.get i < A.M) :
    (A.app i j v).row i = A.row i ++ [(j, v)] := by
  unfold app
  rw [withNnz_row_same, put_rowPre_succ A hcap]
  rfl

theorem app_frame {A : Ell R} {i j : Nat} {v : R} (hcap : A.nnz.get i < A.M) :
    Frame A (A.app i j v) i :=
  (frame_put A _ _ hcap).trans (frame_withNnz _ _ _)

theorem app_row_ne {A : Ell R} {i j : Nat} {v : R} (hcap : A.nnz.get i < A.M) {i' : Nat}
    (hne : i' ≠ i) (hle : A.nnz.get i' ≤ A.M) : (A.app i j v).row i' = A.row i' := by
  have hf := app_frame (j := j) (v := v) hcap
  unfold row
  rw [hf.nnz i' hne, hf.rows i' _ hne hle]

theorem setElement_append {A : Ell R} (hS : A.Shape) {i j : Nat} (hi : i < A.N) (v : R)
    (hcap : A.nnz.get i < A.M) (hno : ¬ A.Stored i j ∨ A.nnz.get i ≤ 2) :
    A.setElement i j v = .ok (A.app i j v) := by
  unfold setElement
  rw [read_nnz hS hi, Res.bind_ok]
  have happ : (do
      let A1 ← A.putEntry i (A.nnz.get i) j v
      A1.setNnz i (A.nnz.get i + 1) : Res (Ell R)) = .ok (A.app i j v) := by
    rw [putEntry_eq hS _ _ hi hcap, Res.bind_ok, setNnz_eq (hS.put _ _ _ _) _ hi]
    rfl
  by_cases hn : A.nnz.get i > 2
  · rw [if_pos hn]
    obtain ⟨r, e, h1, h2⟩ := findSlot_spec hS hi j (A.nnz.get i) 0 (by omega)
    rw [e, Res.bind_ok]
    cases r with
    | some l =>
      obtain ⟨-, hl, hlj⟩ := h1 l rfl
      rcases hno with h | h
      · exact absurd ⟨l, by omega, hlj⟩ h
      · omega
    | none => exact happ
  · rw [if_neg hn]; exact happ

theorem setElementNew_append {A : Ell R} (hS : A.Shape) {i j : Nat} (hi : i < A.N) (v : R)
    (hcap : A.nnz.get i < A.M) : A.setElementNew i j v = .ok (A.app i j v) := by
  unfold setElementNew
  rw [read_nnz hS hi, Res.bind_ok, putEntry_eq hS _ _ hi hcap, Res.bind_ok,
    setNnz_eq (hS.put _ _ _ _) _ hi]
  rfl

theorem app_rep {N : Nat} {A : Ell R} {a : Spec.Mat R} (hA : A.Rep N a) {i j : Nat}
    (hi : i < N) (hj : j < N) (v : R) (hcap : A.nnz.get i < A.M) (hno : ¬ A.Stored i j) :
    (A.app i j v).Rep N (Spec.set a i j v) := by
  have hfit : ∀ k, k < A.nnz.get i → A.idx.get (i * A.M + k) ≠ j :=
    fun k hk he => hno ⟨k, hk, he⟩
  have h := wp_setElementNew (E := False) hA hi hj v hcap hfit
  rw [setElementNew_append hA.shape (by rw [hA.dim]; exact hi) v hcap] at h
  exact h.2.1

theorem app_stored {A : Ell R} {i j : Nat} {v : R} (hcap : A.nnz.get i < A.M) {i' j' : Nat}
    (hle : A.nnz.get i' ≤ A.M) :
    (A.app i j v).Stored i' j' ↔ A.Stored i' j' ∨ (i' = i ∧ j' = j) := by
  rw [stored_iff, stored_iff]
  by_cases he : i' = i
  · subst he
    rw [app_row hcap]
    simp
  · rw [app_row_ne hcap he hle]
    simp [he]

theorem app_nnz (A : Ell R) (i j : Nat) (v : R) (i' : Nat) :
    (A.app i j v).nnz.get i' = A.nnz.get i' + if i' = i then 1 else 0 := by
  unfold app
  simp only [withNnz_nnz, put_nnz]
  by_cases he : i' = i
  · subst he; simp
  · rw [upd_ne _ _ he, if_neg he]; rfl

/-- Writing a list of new elements, by any operation that appends. -/
theorem writes_rep {N : Nat} (op : Ell R → Nat → Nat → R → Res (Ell R))
    (hop : ∀ (A : Ell R) i j v, A.Shape → i < A.N → A.nnz.get i < A.M → ¬ A.Stored i j →
      op A i j v = .ok (A.app i j v)) :
    ∀ (ws : List (Nat × Nat × R)) (A : Ell R) (a : Spec.Mat R), A.Rep N a →
      (∀ w ∈ ws, w.1 < N ∧ w.2.1 < N ∧ ¬ A.Stored w.1 w.2.1) →
      (ws.map (fun w => (w.1, w.2.1))).Nodup →
      (∀ i, i < N → A.nnz.get i + (ws.filter (fun w => w.1 = i)).length ≤ A.M) →
      ∃ A', forList ws A (fun w A => op A w.1 w.2.1 w.2.2) = .ok A' ∧ A'.M = A.M ∧
        A'.Rep N (ws.foldl (fun a w => Spec.set a w.1 w.2.1 w.2.2) a) := by
  intro ws
  induction ws with
  | nil => intro A a hA _ _ _; exact ⟨A, rfl, rfl, hA⟩
  | cons w ws ih =>
    intro A a hA hw hn hc
    obtain ⟨i, j, v⟩ := w
    obtain ⟨hi, hj, hno⟩ := hw (i, j, v) (by simp)
    simp only at hi hj hno
    have hcap : A.nnz.get i < A.M := by
      have := hc i hi
      simp at this
      omega
    have hstep := hop A i j v hA.shape (by rw [hA.dim]; exact hi) hcap hno
    simp only [List.map_cons, List.nodup_cons] at hn
    have c1 : ∀ w ∈ ws, w.1 < N ∧ w.2.1 < N ∧ ¬ (A.app i j v).Stored w.1 w.2.1 := by
      intro w' hw'
      obtain ⟨h1, h2, h3⟩ := hw w' (by simp [hw'])
      refine ⟨h1, h2, ?_⟩
      rw [app_stored hcap (hA.le _ h1)]
      rintro (h | ⟨he1, he2⟩)
      · exact h3 h
      · apply hn.1
        exact List.mem_map.2 ⟨w', hw', by rw [he1, he2]⟩
    have c2 : ∀ i', i' < N → (A.app i j v).nnz.get i' + (ws.filter (fun w => w.1 = i')).length
        ≤ (A.app i j v).M := by
      intro i' hi'
      have := hc i' hi'
      rw [app_nnz]
      show _ ≤ A.M
      by_cases he : i' = i
      · subst he
        simp at this ⊢
        omega
      · have hne : ¬ i = i' := fun h => he h.symm
        simp [hne] at this
        simp [he, this]
    obtain ⟨A', e, hM, hR⟩ := ih (A.app i j v) _ (app_rep hA hi hj v hcap hno) c1 hn.2 c2
    refine ⟨A', ?_, ?_, ?_⟩
    · simp only [forList_cons]
      rw [hstep, Res.bind_ok]; exact e
    · rw [hM]; rfl
    · exact hR

/-- The write is lost when a short row already holds the column. -/
theorem getElement_app_stored {N : Nat} {A : Ell R} {a : Spec.Mat R} (hA : A.Rep N a) {i j : Nat}
    (hi : i < N) (hj : j < N) (v : R) (hcap : A.nnz.get i < A.M) (hst : A.Stored i j) :
    (A.app i j v).getElement i j = .ok (a i j) := by
  have hd := hA.dim
  have hS := app_shape hA.shape i j v
  unfold getElement
  have hN : (A.app i j v).N = N := hd
  rw [if_neg (by omega), if_neg (by omega)]
  simp only [Int.toNat_natCast]
  rw [read_nnz hS (by omega), Res.bind_ok]
  have hn : (A.app i j v).nnz.get i = A.nnz.get i + 1 := by rw [app_nnz]; simp
  have hMM : (A.app i j v).M = A.M := rfl
  rw [hn, findFrom_eq hS (by omega) _ _ (by omega), Nat.zero_add, List.drop_zero]
  have : (A.app i j v).rowPre i (A.nnz.get i + 1) = A.row i ++ [(j, v)] := by
    rw [← app_row hcap, row, hn]
  rw [this, ← hA.den i j hi hj, ← find_den (hA.good i hi) j, List.find?_append]
  congr 1
  obtain ⟨p, hp, he⟩ := List.mem_map.1 (stored_iff.1 hst)
  cases h : (A.row i).find? (fun q => decide (q.1 = j)) with
  | some q => rfl
  | none =>
    have := List.find?_eq_none.1 h p hp
    simp [he] at this

end Ell

end Bml
