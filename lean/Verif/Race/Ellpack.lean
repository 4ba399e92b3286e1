import Verif.Race.Sim
import Verif.Ellpack.Update

/-!
# The parallel loops of ELLPACK matrices, access by access
-/

namespace Bml
namespace Race

variable {R : Type}

/-- Shared memory of the loops: `value[p]`, `index[p]` and `nnz[i]` of matrix `x`, and the locks. -/
inductive Loc
  | val (x p : Nat)
  | idx (x p : Nat)
  | nnz (x i : Nat)
  | lock (k : Nat)
  deriving DecidableEq

/-- The type of a location. -/
abbrev ty (R : Type) : Loc → Type
  | .val _ _ => R
  | .idx _ _ => Nat
  | .nnz _ _ => Nat
  | .lock _ => Unit

/-- The sizes of the matrices: `N` rows, and `M x` entries per row in matrix `x`; and the number of
locks the function has made. -/
structure Sizes where
  N : Nat
  M : Nat → Nat
  locks : Nat := 0

/-- The locations that exist: the arrays of `bml_matrix_ellpack_t`,
`src/C-interface/ellpack/bml_types_ellpack.h` 16-50. -/
def Sizes.inb (sh : Sizes) : Loc → Bool
  | .val x p => p < sh.N * sh.M x
  | .idx x p => p < sh.N * sh.M x
  | .nnz _ i => i < sh.N
  | .lock k => k < sh.locks

/-- Matrix `x` in memory `m`. -/
def mat (sh : Sizes) (m : Mem (ty R)) (x : Nat) : Ell R :=
  ⟨sh.N, sh.M x, ⟨sh.N * sh.M x, fun p => m (.val x p)⟩, ⟨sh.N * sh.M x, fun p => m (.idx x p)⟩,
    ⟨sh.N, fun i => m (.nnz x i)⟩⟩

/-- The memory that holds the matrices `E`. -/
def memOf (E : Nat → Ell R) : Mem (ty R)
  | .val x p => (E x).val.get p
  | .idx x p => (E x).idx.get p
  | .nnz x i => (E x).nnz.get i
  | .lock _ => ()

/-- `value[p]` of matrix `x`. -/
def ldVal (x p : Nat) : Prog (ty R) R := .rd (.val x p) .ret

/-- `index[p]` of matrix `x`. -/
def ldIdx (x p : Nat) : Prog (ty R) Nat := .rd (.idx x p) .ret

/-- `nnz[i]` of matrix `x`. -/
def ldNnz (x i : Nat) : Prog (ty R) Nat := .rd (.nnz x i) .ret

/-- `nnz[i] = n;` of matrix `x`. -/
def stNnz (x i n : Nat) : Prog (ty R) Unit := .wr (.nnz x i) n (.ret ())

/-- Entry `p` of row `i` of matrix `x` becomes `v` in column `k`. -/
def stEntry (sh : Sizes) (x i p k : Nat) (v : R) : Prog (ty R) Unit :=
  .wr (.val x (ROWMAJOR i p sh.N (sh.M x))) v (.wr (.idx x (ROWMAJOR i p sh.N (sh.M x))) k (.ret ()))

/-! ## The bodies of the loops -/

/-- `bml_threshold_ellpack`, `bml_threshold_ellpack_typed.c` 116-131.  The value is loaded once; the C
text names it twice. -/
def thresholdRow (sh : Sizes) (x : Nat) (big : R → Bool) (i : Nat) : Prog (ty R) Unit := do
  let n ← ldNnz x i
  let rlen ← Prog.loop n 0 fun j rlen => do
    let v ← ldVal x (ROWMAJOR i j sh.N (sh.M x))
    if big v then do
      let _ ← (if rlen < j then do
          let k ← ldIdx x (ROWMAJOR i j sh.N (sh.M x))
          stEntry sh x i rlen k v
        else pure () : Prog (ty R) Unit)
      pure (rlen + 1)
    else pure rlen
  stNnz x i rlen

section
variable [CommRing R]

/-- `bml_add_ellpack_typed.c` 163-174 and 177-188.  The arrays `x`, `ix`, `jx` are private. -/
def accumRow (sh : Sizes) (x i mark : Nat) (α : R) (st : Scr R × Nat) : Prog (ty R) (Scr R × Nat) := do
  let n ← ldNnz x i
  Prog.loop n st fun jp st => do
    let k ← ldIdx x (ROWMAJOR i jp sh.N (sh.M x))
    let v ← ldVal x (ROWMAJOR i jp sh.N (sh.M x))
    .lift (Ell.accum mark k (α * v) st)

/-- The private part of `flush` before the stores. -/
def flushGet (jp : Nat) (s : Scr R) : Res (Nat × R) := do
  let jind ← s.jx.read jp
  let xTmp ← s.x.read jind
  pure (jind, xTmp)

/-- The private part of `flush` after the stores. -/
def flushPut (jind : Nat) (s : Scr R) : Res (Scr R) := do
  let x ← s.x.write jind 0
  let ix ← s.ix.write jind 0
  pure ⟨x, ix, s.jx⟩

/-- `bml_add_ellpack_typed.c` 191-204, `bml_multiply_ellpack_typed.c` 301-321, 521-541. -/
def flush (sh : Sizes) (x i : Nat) (test : Nat → R → Bool) (s : Scr R) (l : Nat) :
    Prog (ty R) (Scr R × Nat) :=
  Prog.loop l (s, 0) fun jp st => do
    let (jind, xTmp) ← .lift (flushGet jp st.1)
    let ll ← (if test jind xTmp then do
        stEntry sh x i st.2 jind xTmp
        pure (st.2 + 1)
      else pure st.2)
    let s ← .lift (flushPut jind st.1)
    pure (s, ll)

/-- `bml_add_ellpack`, `bml_add_ellpack_typed.c` 161-205: row `i` of `A := alpha A + beta B`, where `A` is
matrix `x` and `B` matrix `y`. -/
def addRow [DecidableEq R] (sh : Sizes) (x y : Nat) (α β : R) (big : R → Bool) (i : Nat) (s : Scr R) :
    Prog (ty R) (Scr R) := do
  let st ← (if α ≠ 0 then accumRow sh x i (i + 1) α (s, 0) else pure (s, 0))
  let st ← (if β ≠ 0 then accumRow sh y i (i + 1) β st else pure st)
  stNnz x i st.2
  let (s, ll) ← flush sh x i (fun _ v => big v) st.1 st.2
  stNnz x i ll
  pure s

/-- `bml_multiply_ellpack_typed.c` 492-511. -/
def accumProd (sh : Sizes) (x y i : Nat) (st : Scr R × Nat) : Prog (ty R) (Scr R × Nat) := do
  let n ← ldNnz x i
  Prog.loop n st fun jp st => do
    let a ← ldVal x (ROWMAJOR i jp sh.N (sh.M x))
    let j ← ldIdx x (ROWMAJOR i jp sh.N (sh.M x))
    accumRow sh y j (i + 1) a st

/-- `bml_multiply_AB_ellpack`, `bml_multiply_ellpack_typed.c` 491-542: row `i` of `C := A B`, where `A`,
`B`, `C` are the matrices `x`, `y`, `z`. -/
def multABRow (sh : Sizes) (x y z : Nat) (big : R → Bool) (i : Nat) (s : Scr R) :
    Prog (ty R) (Scr R) := do
  let st ← accumProd sh x y i (s, 0)
  if st.2 > sh.M z then .fail
  else do
    let (s, ll) ← flush sh z i (fun j v => decide (j = i) || big v) st.1 st.2
    stNnz z i ll
    pure s

end

/-! ## The loops -/

/-- The team of `bml_threshold`. -/
def thresholdTeam (sh : Sizes) (m : Mem (ty R)) (x : Nat) (big : R → Bool) (sc : Sched) :
    Team (ty R) Unit :=
  Team.start m () sc fun i _ => thresholdRow sh x big i

/-- The team of `bml_add`; `firstprivate(x, ix, jx)` arrays that have been cleared. -/
def addTeam [CommRing R] [DecidableEq R] (sh : Sizes) (m : Mem (ty R)) (x y : Nat) (α β : R)
    (big : R → Bool) (sc : Sched) : Team (ty R) (Scr R) :=
  Team.start m (Ell.clearScr sh.N) sc fun i s => addRow sh x y α β big i s

/-- The team of `bml_multiply_AB_ellpack`. -/
def multABTeam [CommRing R] (sh : Sizes) (m : Mem (ty R)) (x y z : Nat) (big : R → Bool) (sc : Sched) :
    Team (ty R) (Scr R) :=
  Team.start m (Ell.clearScr sh.N) sc fun i s => multABRow sh x y z big i s

/-! ## Locations -/

/-- The locations of row `i` of matrix `x`. -/
def Row (sh : Sizes) (x i : Nat) : Loc → Prop
  | .val y p => y = x ∧ i < sh.N ∧ ∃ j < sh.M x, p = ROWMAJOR i j sh.N (sh.M x)
  | .idx y p => y = x ∧ i < sh.N ∧ ∃ j < sh.M x, p = ROWMAJOR i j sh.N (sh.M x)
  | .nnz y k => y = x ∧ i < sh.N ∧ k = i
  | .lock _ => False

theorem Row.inb {sh : Sizes} {x i : Nat} {l : Loc} (h : Row sh x i l) : sh.inb l = true := by
  cases l with
  | val y p =>
    obtain ⟨rfl, hi, j, hj, rfl⟩ := h
    exact decide_eq_true (addr_lt hi hj)
  | idx y p =>
    obtain ⟨rfl, hi, j, hj, rfl⟩ := h
    exact decide_eq_true (addr_lt hi hj)
  | nnz y k =>
    obtain ⟨rfl, hi, rfl⟩ := h
    exact decide_eq_true hi
  | lock k => exact h.elim

theorem Row.disjoint {sh : Sizes} {x x' i i' : Nat} (h : x ≠ x' ∨ i ≠ i') (l : Loc) (h1 : Row sh x i l) :
    ¬ Row sh x' i' l := by
  intro h2
  cases l with
  | val y p =>
    obtain ⟨rfl, hi, j, hj, rfl⟩ := h1
    obtain ⟨rfl, hi', j', hj', e⟩ := h2
    exact h.elim (fun g => g rfl) fun g => g (addr_inj hj hj' e).1
  | idx y p =>
    obtain ⟨rfl, hi, j, hj, rfl⟩ := h1
    obtain ⟨rfl, hi', j', hj', e⟩ := h2
    exact h.elim (fun g => g rfl) fun g => g (addr_inj hj hj' e).1
  | nnz y k =>
    obtain ⟨rfl, hi, rfl⟩ := h1
    obtain ⟨rfl, hi', e⟩ := h2
    exact h.elim (fun g => g rfl) fun g => g e
  | lock k => exact h1.elim

theorem Row.at_val {sh : Sizes} {x i j : Nat} (hi : i < sh.N) (hj : j < sh.M x) :
    Row sh x i (.val x (ROWMAJOR i j sh.N (sh.M x))) := ⟨rfl, hi, j, hj, rfl⟩

theorem Row.at_idx {sh : Sizes} {x i j : Nat} (hi : i < sh.N) (hj : j < sh.M x) :
    Row sh x i (.idx x (ROWMAJOR i j sh.N (sh.M x))) := ⟨rfl, hi, j, hj, rfl⟩

theorem Row.at_nnz {sh : Sizes} {x i : Nat} (hi : i < sh.N) : Row sh x i (.nnz x i) := ⟨rfl, hi, rfl⟩

theorem mat_shape (sh : Sizes) (m : Mem (ty R)) (x : Nat) : (mat sh m x).Shape := ⟨rfl, rfl, rfl⟩

/-- What is stored in a row depends on the locations of the row only. -/
theorem rowSat_congr {sh : Sizes} {m m' : Mem (ty R)} {x i : Nat} {Φ : SRow R → Prop} (hi : i < sh.N)
    (h : (mat sh m x).RowSat i Φ) (hm : ∀ l, Row sh x i l → m' l = m l) : (mat sh m' x).RowSat i Φ := by
  have hn : m' (.nnz x i) = m (.nnz x i) := hm _ (Row.at_nnz hi)
  have h1 : m (.nnz x i) ≤ sh.M x := h.1
  refine ⟨?_, ?_⟩
  · show m' (.nnz x i) ≤ sh.M x
    rw [hn]
    exact h1
  · have : (mat sh m' x).row i = (mat sh m x).row i := by
      unfold Ell.row Ell.rowPre
      show (List.range (m' (.nnz x i))).map _ = (List.range (m (.nnz x i))).map _
      rw [hn]
      apply List.map_congr_left
      intro k hk
      have hk : k < sh.M x := lt_of_lt_of_le (List.mem_range.1 hk) h1
      exact Prod.ext (hm _ (Row.at_idx hi hk)) (hm _ (Row.at_val hi hk))
    rw [this]
    exact h.2

/-- A matrix whose locations are unchanged is unchanged; locations of rows of other matrices do not
matter. -/
theorem mat_congr {sh : Sizes} {m m' : Mem (ty R)} {y : Nat}
    (h : ∀ l, (∀ {x : Nat}, y ≠ x → ∀ i, ¬ Row sh x i l) → m l = m' l) : mat sh m y = mat sh m' y := by
  have h1 : ∀ p, m (.val y p) = m' (.val y p) := fun p => h _ fun hx i hr => hx hr.1
  have h2 : ∀ p, m (.idx y p) = m' (.idx y p) := fun p => h _ fun hx i hr => hx hr.1
  have h3 : ∀ p, m (.nnz y p) = m' (.nnz y p) := fun p => h _ fun hx i hr => hx hr.1
  unfold mat
  rw [funext h1, funext h2, funext h3]

theorem mat_stVal (sh : Sizes) (m : Mem (ty R)) (x p : Nat) (v : R) :
    mat sh (Function.update m (.val x p) v) x =
      { mat sh m x with val := ⟨sh.N * sh.M x, upd (mat sh m x).val.get p v⟩ } := by
  have h : (fun q => Function.update m (.val x p) v (.val x q)) =
      upd (fun q => m (.val x q)) p v := by
    funext q
    by_cases c : q = p
    · subst c
      rw [Function.update_self, upd_same]
    · rw [Function.update_of_ne (by simpa using c), upd_ne _ _ c]
  show Ell.mk _ _ ⟨_, _⟩ _ _ = Ell.mk _ _ ⟨_, _⟩ _ _
  rw [h]
  rfl

theorem mat_stIdx (sh : Sizes) (m : Mem (ty R)) (x p : Nat) (k : Nat) :
    mat sh (Function.update m (.idx x p) k) x =
      { mat sh m x with idx := ⟨sh.N * sh.M x, upd (mat sh m x).idx.get p k⟩ } := by
  have h : (fun q => Function.update m (.idx x p) k (.idx x q)) =
      upd (fun q => m (.idx x q)) p k := by
    funext q
    by_cases c : q = p
    · subst c
      rw [Function.update_self, upd_same]
    · rw [Function.update_of_ne (by simpa using c), upd_ne _ _ c]
  show Ell.mk _ _ _ ⟨_, _⟩ _ = Ell.mk _ _ _ ⟨_, _⟩ _
  rw [h]
  rfl

theorem mat_stNnz (sh : Sizes) (m : Mem (ty R)) (x i : Nat) (n : Nat) :
    mat sh (Function.update m (.nnz x i) n) x =
      { mat sh m x with nnz := ⟨sh.N, upd (mat sh m x).nnz.get i n⟩ } := by
  have h : (fun q => Function.update m (.nnz x i) n (.nnz x q)) =
      upd (fun q => m (.nnz x q)) i n := by
    funext q
    by_cases c : q = i
    · subst c
      rw [Function.update_self, upd_same]
    · rw [Function.update_of_ne (by simpa using c), upd_ne _ _ c]
  show Ell.mk _ _ _ _ ⟨_, _⟩ = Ell.mk _ _ _ _ ⟨_, _⟩
  rw [h]
  rfl

/-! ## The programs follow the model -/

variable {own ro : Loc → Prop} {m : Mem (ty R)} {sh : Sizes} {γ δ : Type} {P : γ → Mem (ty R) → δ → Prop}

theorem tr_ldVal {x p : Nat} {f : R → Prog (ty R) γ} {g : R → Res δ} (hl : own (.val x p) ∨ ro (.val x p))
    (h : Tr own ro (f (m (.val x p))) m (g (m (.val x p))) P) :
    Tr own ro (ldVal x p >>= f) m ((mat sh m x).val.read p >>= g) P := by
  intro b hb
  obtain ⟨v, hv, hg⟩ := ok_bind hb
  unfold Arr.read at hv
  split at hv
  · cases hv
    exact ⟨hl, h b hg⟩
  · cases hv

theorem tr_ldIdx {x p : Nat} {f : Nat → Prog (ty R) γ} {g : Nat → Res δ}
    (hl : own (.idx x p) ∨ ro (.idx x p))
    (h : p < sh.N * sh.M x → Tr own ro (f (m (.idx x p))) m (g (m (.idx x p))) P) :
    Tr own ro (ldIdx x p >>= f) m ((mat sh m x).idx.read p >>= g) P := by
  intro b hb
  obtain ⟨v, hv, hg⟩ := ok_bind hb
  unfold Arr.read at hv
  split at hv
  · rename_i hp
    cases hv
    exact ⟨hl, h hp b hg⟩
  · cases hv

theorem tr_ldNnz {x i : Nat} {f : Nat → Prog (ty R) γ} {g : Nat → Res δ}
    (hl : own (.nnz x i) ∨ ro (.nnz x i))
    (h : Tr own ro (f (m (.nnz x i))) m (g (m (.nnz x i))) P) :
    Tr own ro (ldNnz x i >>= f) m ((mat sh m x).nnz.read i >>= g) P := by
  intro b hb
  obtain ⟨v, hv, hg⟩ := ok_bind hb
  unfold Arr.read at hv
  split at hv
  · cases hv
    exact ⟨hl, h b hg⟩
  · cases hv

theorem tr_stNnz {x i n : Nat} (hl : own (.nnz x i)) :
    Tr own ro (stNnz x i n) m ((mat sh m x).setNnz i n) fun _ m' b => mat sh m' x = b := by
  intro b hb
  obtain ⟨v, hv, hg⟩ := ok_bind hb
  unfold Arr.write at hv
  split at hv
  · cases hv
    cases hg
    exact ⟨hl, mat_stNnz sh m x i n⟩
  · cases hv

theorem tr_stEntry {x i p k : Nat} {v : R} (hl : own (.val x (ROWMAJOR i p sh.N (sh.M x))))
    (hl' : own (.idx x (ROWMAJOR i p sh.N (sh.M x)))) :
    Tr own ro (stEntry sh x i p k v) m ((mat sh m x).putEntry i p k v) fun _ m' b => mat sh m' x = b := by
  intro b hb
  obtain ⟨w, hw, hg⟩ := ok_bind hb
  obtain ⟨u, hu, hg⟩ := ok_bind hg
  unfold Arr.write at hw hu
  split at hw
  · split at hu
    · cases hw
      cases hu
      cases hg
      refine ⟨hl, hl', ?_⟩
      show mat sh _ x = _
      rw [mat_stIdx, mat_stVal]
      rfl
    · cases hu
  · cases hw

theorem tr_thresholdRow {x i : Nat} (big : R → Bool) (hi : i < sh.N) (hn : m (.nnz x i) ≤ sh.M x) :
    Tr (Row sh x i) ro (thresholdRow sh x big i) m (Ell.thresholdRow big i (mat sh m x))
      fun _ m' b => mat sh m' x = b := by
  unfold thresholdRow Ell.thresholdRow
  refine tr_ldNnz (.inl (Row.at_nnz hi)) ?_
  refine tr_bind (fun (rlen : Nat) m' (b : Ell R × Nat) => mat sh m' x = b.1 ∧ rlen = b.2) ?_ ?_
  · refine fun b hb => Prog.wp_mono (tr_loop (fun k (rlen : Nat) m' (b : Ell R × Nat) =>
      mat sh m' x = b.1 ∧ rlen = b.2 ∧ rlen ≤ k) ⟨rfl, rfl, le_refl _⟩ ?_ b hb) fun a m' h => ⟨h.1, h.2.1⟩
    rintro j hj rlen m1 ⟨A, r⟩ ⟨h1, h2, h3⟩
    simp only at h1 h2 ⊢
    subst h1 h2
    have hjM : j < sh.M x := lt_of_lt_of_le (α := Nat) hj hn
    refine tr_ldVal (.inl (Row.at_val hi hjM)) ?_
    refine tr_ite (fun _ => ?_) fun _ => tr_pure ⟨rfl, rfl, by omega⟩
    refine tr_bind (fun (_ : Unit) m' (b : Ell R) => mat sh m' x = b) ?_ ?_
    · refine tr_ite (fun hlt => ?_) fun _ => tr_pure rfl
      refine tr_ldIdx (.inl (Row.at_idx hi (by omega))) fun _ => ?_
      exact tr_stEntry (Row.at_val hi (by omega)) (Row.at_idx hi (by omega))
    · rintro ⟨⟩ m2 A - h
      subst h
      exact tr_pure ⟨rfl, rfl, by omega⟩
  · rintro rlen m1 ⟨A, r⟩ - ⟨h1, h2⟩
    simp only at h1 h2 ⊢
    subst h1 h2
    exact tr_stNnz (Row.at_nnz hi)

section
variable [CommRing R]

theorem tr_accumRow {x i mark : Nat} {α : R} {st : Scr R × Nat}
    (hl : ∀ l, Row sh x i l → own l ∨ ro l) (hi : i < sh.N) (hn : m (.nnz x i) ≤ sh.M x) :
    Tr own ro (accumRow sh x i mark α st) m (Ell.accumRow (mat sh m x) i mark α st)
      fun a m' b => m' = m ∧ a = b := by
  unfold accumRow Ell.accumRow
  refine tr_ldNnz (hl _ (Row.at_nnz hi)) ?_
  refine tr_loop (fun _ a m' b => m' = m ∧ a = b) ⟨rfl, rfl⟩ ?_
  rintro jp hjp a m1 b ⟨h1, h2⟩
  subst h1 h2
  have hjM : jp < sh.M x := lt_of_lt_of_le (α := Nat) hjp hn
  refine tr_ldIdx (hl _ (Row.at_idx hi (by omega))) fun _ => ?_
  refine tr_ldVal (hl _ (Row.at_val hi (by omega))) ?_
  exact tr_lift fun a _ => ⟨rfl, rfl⟩

theorem tr_accumProd {x y i : Nat} {st : Scr R × Nat} (hl : ∀ l, Row sh x i l → own l ∨ ro l)
    (hl' : ∀ k < sh.N, ∀ l, Row sh y k l → own l ∨ ro l) (hi : i < sh.N)
    (hn : m (.nnz x i) ≤ sh.M x) (hn' : ∀ k < sh.N, m (.nnz y k) ≤ sh.M y)
    (hc : ∀ p < m (.nnz x i), m (.idx x (ROWMAJOR i p sh.N (sh.M x))) < sh.N) :
    Tr own ro (accumProd sh x y i st) m (Ell.accumProd (mat sh m x) (mat sh m y) i st)
      fun a m' b => m' = m ∧ a = b := by
  unfold accumProd Ell.accumProd
  refine tr_ldNnz (hl _ (Row.at_nnz hi)) ?_
  refine tr_loop (fun _ a m' b => m' = m ∧ a = b) ⟨rfl, rfl⟩ ?_
  rintro jp hjp a m1 b ⟨h1, h2⟩
  subst h1 h2
  have hjM : jp < sh.M x := lt_of_lt_of_le (α := Nat) hjp hn
  refine tr_ldVal (hl _ (Row.at_val hi (by omega))) ?_
  refine tr_ldIdx (hl _ (Row.at_idx hi (by omega))) fun _ => ?_
  have h := hc jp hjp
  exact tr_accumRow (hl' _ h) h (hn' _ h)

theorem tr_flush {x i : Nat} {test : Nat → R → Bool} {s : Scr R} {l : Nat} {own ro : Loc → Prop}
    (hi : i < sh.N) (hl : ∀ l, Row sh x i l → own l) (b : Ell R × Scr R × Nat)
    (hb : Ell.flush (mat sh m x) i test s l = .ok b) (hc : b.2.2 ≤ sh.M x) :
    (flush sh x i test s l).wp own ro m fun a m' => mat sh m' x = b.1 ∧ a = b.2 := by
  unfold Ell.flush at hb
  unfold flush
  refine tr_loop_le (fun _ a m' (b : Ell R × Scr R × Nat) => mat sh m' x = b.1 ∧ a = b.2)
    (fun b => b.2.2) (sh.M x) ?_ ⟨rfl, rfl⟩ ?_ b hb hc
  · rintro k ⟨C, s, ll⟩ ⟨C', s', ll'⟩ h
    simp only at h ⊢
    obtain ⟨jind, -, h⟩ := ok_bind h
    obtain ⟨xTmp, -, h⟩ := ok_bind h
    obtain ⟨⟨C1, l1⟩, h1, h⟩ := ok_bind h
    obtain ⟨_, -, h⟩ := ok_bind h
    obtain ⟨_, -, h⟩ := ok_bind h
    cases h
    split at h1
    · obtain ⟨_, -, h1⟩ := ok_bind h1
      cases h1
      omega
    · cases h1
      exact le_refl _
  · rintro k hk ⟨s, ll⟩ m1 ⟨C, s1, l1⟩ ⟨C', s', ll'⟩ ⟨h1, h2⟩ h hle
    simp only at h1 h2 h hle ⊢
    cases h2
    subst h1
    obtain ⟨jind, hj, h⟩ := ok_bind h
    obtain ⟨xTmp, hx, h⟩ := ok_bind h
    obtain ⟨⟨C1, l1⟩, h1, h⟩ := ok_bind h
    obtain ⟨x1, hx1, h⟩ := ok_bind h
    obtain ⟨ix1, hix1, h⟩ := ok_bind h
    cases h
    have hget : flushGet k s = .ok (jind, xTmp) := by
      unfold flushGet
      rw [hj, Res.bind_ok, hx, Res.bind_ok]
      rfl
    have hput : flushPut jind s = .ok ⟨x1, ix1, s.jx⟩ := by
      unfold flushPut
      rw [hx1, Res.bind_ok, hix1, Res.bind_ok]
      rfl
    show (Prog.bind _ _).wp _ _ _ _
    rw [Prog.wp_bind, Prog.wp_lift, hget]
    show (Prog.bind _ _).wp _ _ _ _
    rw [Prog.wp_bind]
    have hmid : (if test jind xTmp = true then do
        stEntry sh x i ll jind xTmp
        pure (ll + 1)
      else pure ll : Prog (ty R) Nat).wp own ro m1 fun a m' => mat sh m' x = C1 ∧ a = l1 := by
      split at h1
      · rename_i ht
        rw [if_pos ht]
        obtain ⟨C2, h2, h1⟩ := ok_bind h1
        cases h1
        show (Prog.bind _ _).wp _ _ _ _
        rw [Prog.wp_bind]
        exact Prog.wp_mono (tr_stEntry (hl _ (Row.at_val hi (by omega))) (hl _ (Row.at_idx hi (by omega)))
          _ h2) fun _ m' e => ⟨e, rfl⟩
      · rename_i ht
        rw [if_neg ht]
        cases h1
        exact ⟨rfl, rfl⟩
    refine Prog.wp_mono hmid ?_
    rintro a m' ⟨e1, e2⟩
    show (Prog.bind _ _).wp _ _ _ _
    rw [Prog.wp_bind, Prog.wp_lift, hput]
    exact ⟨e1, by rw [e2]⟩

theorem tr_addRow [DecidableEq R] {x y i : Nat} {α β : R} {big : R → Bool} {s : Scr R}
    (hi : i < sh.N) (hly : ∀ l, Row sh y i l → Row sh x i l ∨ ro l)
    (hn : m (.nnz x i) ≤ sh.M x) (hn' : m (.nnz y i) ≤ sh.M y) (b : Ell R × Scr R)
    (hb : Ell.addRow (mat sh m y) α β big i (mat sh m x) s = .ok b) (hc : b.1.nnz.get i ≤ sh.M x) :
    (addRow sh x y α β big i s).wp (Row sh x i) ro m fun a m' => mat sh m' x = b.1 ∧ a = b.2 := by
  unfold Ell.addRow at hb
  obtain ⟨st1, h1, hb⟩ := ok_bind hb
  obtain ⟨st2, h2, hb⟩ := ok_bind hb
  obtain ⟨A1, h3, hb⟩ := ok_bind hb
  obtain ⟨⟨A2, s2, ll⟩, h4, hb⟩ := ok_bind hb
  obtain ⟨A3, h5, hb⟩ := ok_bind hb
  cases hb
  have hll : ll ≤ sh.M x := by
    obtain ⟨z, hz, h5⟩ := ok_bind h5
    cases h5
    unfold Arr.write at hz
    split at hz
    · cases hz
      simpa using hc
    · cases hz
  unfold addRow
  show (Prog.bind _ _).wp _ _ _ _
  rw [Prog.wp_bind]
  have e1 := tr_ite (own := Row sh x i) (ro := ro) (m := m) (c := α ≠ 0)
    (p := accumRow sh x i (i + 1) α (s, 0)) (q := pure (s, 0))
    (r := Ell.accumRow (mat sh m x) i (i + 1) α (s, 0)) (s := pure (s, 0))
    (P := fun a m' b => m' = m ∧ a = b)
    (fun _ => tr_accumRow (fun l hl => .inl hl) hi hn) (fun _ => tr_pure ⟨rfl, rfl⟩) st1 h1
  refine Prog.wp_mono e1 ?_
  rintro a m1 ⟨g1, g2⟩
  subst g1 g2
  show (Prog.bind _ _).wp _ _ _ _
  rw [Prog.wp_bind]
  have e2 := tr_ite (own := Row sh x i) (ro := ro) (m := m1) (c := β ≠ 0)
    (p := accumRow sh y i (i + 1) β a) (q := pure a)
    (r := Ell.accumRow (mat sh m1 y) i (i + 1) β a) (s := pure a)
    (P := fun a m' b => m' = m1 ∧ a = b)
    (fun _ => tr_accumRow hly hi hn') (fun _ => tr_pure ⟨rfl, rfl⟩) st2 h2
  refine Prog.wp_mono e2 ?_
  rintro a2 m2 ⟨g1, g2⟩
  subst g1 g2
  show (Prog.bind _ _).wp _ _ _ _
  rw [Prog.wp_bind]
  refine Prog.wp_mono (tr_stNnz (Row.at_nnz hi) _ h3) ?_
  rintro _ m3 g3
  subst g3
  show (Prog.bind _ _).wp _ _ _ _
  rw [Prog.wp_bind]
  refine Prog.wp_mono (tr_flush hi (fun _ h => h) _ h4 hll) ?_
  rintro ⟨s5, ll5⟩ m4 ⟨g4, g5⟩
  simp only at g4 g5 ⊢
  cases g5
  subst g4
  show (Prog.bind _ _).wp _ _ _ _
  rw [Prog.wp_bind]
  refine Prog.wp_mono (tr_stNnz (Row.at_nnz hi) _ h5) ?_
  rintro _ m5 g5
  exact ⟨g5, rfl⟩

theorem tr_multABRow {x y z i : Nat} {big : R → Bool} {s : Scr R}
    (hi : i < sh.N) (hlx : ∀ l, Row sh x i l → Row sh z i l ∨ ro l)
    (hly : ∀ k < sh.N, ∀ l, Row sh y k l → Row sh z i l ∨ ro l)
    (hn : m (.nnz x i) ≤ sh.M x) (hn' : ∀ k < sh.N, m (.nnz y k) ≤ sh.M y)
    (hcol : ∀ p < m (.nnz x i), m (.idx x (ROWMAJOR i p sh.N (sh.M x))) < sh.N) (b : Ell R × Scr R)
    (hb : Ell.multABRow (mat sh m x) (mat sh m y) big i (mat sh m z) s = .ok b)
    (hc : b.1.nnz.get i ≤ sh.M z) :
    (multABRow sh x y z big i s).wp (Row sh z i) ro m fun a m' => mat sh m' z = b.1 ∧ a = b.2 := by
  unfold Ell.multABRow at hb
  obtain ⟨st1, h1, hb⟩ := ok_bind hb
  unfold multABRow
  show (Prog.bind _ _).wp _ _ _ _
  rw [Prog.wp_bind]
  refine Prog.wp_mono (tr_accumProd hlx hly hi hn hn' hcol _ h1) ?_
  rintro a m1 ⟨g1, g2⟩
  subst g1 g2
  change (if a.2 > sh.M z then _ else _) = _ at hb
  split at hb
  · cases hb
  · rename_i hle
    rw [if_neg hle]
    obtain ⟨⟨A2, s2, ll⟩, h4, hb⟩ := ok_bind hb
    obtain ⟨A3, h5, hb⟩ := ok_bind hb
    cases hb
    have hll : ll ≤ sh.M z := by
      obtain ⟨w, hw, h5⟩ := ok_bind h5
      cases h5
      unfold Arr.write at hw
      split at hw
      · cases hw
        simpa using hc
      · cases hw
    show (Prog.bind _ _).wp _ _ _ _
    rw [Prog.wp_bind]
    refine Prog.wp_mono (tr_flush hi (fun _ h => h) _ h4 hll) ?_
    rintro ⟨s5, ll5⟩ m4 ⟨g4, g5⟩
    simp only at g4 g5 ⊢
    cases g5
    subst g4
    show (Prog.bind _ _).wp _ _ _ _
    rw [Prog.wp_bind]
    refine Prog.wp_mono (tr_stNnz (Row.at_nnz hi) _ h5) ?_
    rintro _ m5 g5
    exact ⟨g5, rfl⟩

end

end Race
end Bml
