import Verif.Round.Read
import Verif.Round.Toy
import Verif.Props.Program

/-!
# Property C82: ELLPACK programs are reproducible bit for bit

The element type `F` is any type with operations: no law of arithmetic is assumed, so the theorems
hold for floating-point numbers.  The specification is a program on lists of stored entries:
`Spec.stored` says which operations, in which order, give each stored entry.
-/

set_option linter.unusedSectionVars false

namespace Bml.Spec

open History

variable {F : Type} [Zero F] [One F] [Add F] [Mul F] [DecidableEq F]

/-- The rows a call stores; `s v i` is row `i` of variable `v`, a list of (column, value).  The
transpositions are not covered. -/
def stored (N : Nat) (s : Nat → Nat → List (Nat × F)) : Cmd F → Nat → List (Nat × F)
  | .zero _ => fun _ => []
  | .identity _ => fun i => [(i, 1)]
  | .set i j x v => upd (s v) i (setIn j x (s v i))
  | .setRow t i row v => upd (s v) i (rowOf t N row.get)
  | .setDiagonal t d v => fun i => setDiag t i (d.get i) (s v i)
  | .copyNew v _ | .copy v _ => s v
  | .scaleInplace c v | .scale c v _ => fun i => scaled c (s v i)
  | .add t α β w v => fun i => sumRow t α β (s v i) (s w i)
  | .addIdentity t β v => fun i => identityRow t β i (s v i)
  | .scaleAddIdentity t α β v => fun i => identityRow t β i (scaled α (s v i))
  | .threshold t v => fun i => (s v i).filter fun p => t p.2
  | .multiply t α β v w u => fun i =>
    if v = w ∧ α = 1 ∧ β = 0 then productRow t (s v i) (s v) i
    else sumRow t β α (s u i) (productRow t (s v i) (s w) i)
  | .square t v _ => fun i => productRow t (s v i) (s v) i
  | .transpose v | .transposeNew v _ => s v

/-- What a call stores fits into rows of width `M`; `bml_set_element` changes a long row or a row
without that column; the call is not a transposition. -/
def Room (N M : Nat) (s : Nat → Nat → List (Nat × F)) : Cmd F → Prop
  | .set i j x v => (2 < (s v i).length ∨ ¬ HasColumn j (s v i)) ∧ (setIn j x (s v i)).length ≤ M
  | .setRow t _ row _ => (rowOf t N row.get).length ≤ M
  | .setDiagonal t d v => ∀ i, i < N → (setDiag t i (d.get i) (s v i)).length ≤ M
  | .add t α β w v => ∀ i, i < N → (sumRow t α β (s v i) (s w i)).length ≤ M
  | .addIdentity _ β v => ∀ i, i < N → (fullIdentity β i (s v i)).length ≤ M
  | .scaleAddIdentity _ α β v => ∀ i, i < N → (fullIdentity β i (scaled α (s v i))).length ≤ M
  | .multiply t α β v w u => ∀ i, i < N → (fullProduct (s v i) (s w)).length ≤ M ∧
      (sumRow t β α (s u i) (productRow t (s v i) (s w) i)).length ≤ M
  | .square t v _ => ∀ i, i < N → (productRow t (s v i) (s v) i).length ≤ M
  | .transpose _ | .transposeNew _ _ => False
  | _ => True

/-- The same before every call of a program; sums over the matrix are not asked for. -/
def RoomAll (N M : Nat) : List (Stmt F) → (Nat → Nat → List (Nat × F)) → Prop
  | [], _ => True
  | .call c :: cs, s => Room N M s c ∧ RoomAll N M cs (upd s c.target (stored N s c))
  | .ask (.trace _) :: _, _ | .ask (.sumSquares _) :: _, _ => False
  | .ask _ :: cs, s => RoomAll N M cs s

/-- The stored value of column `j`, zero if there is none. -/
def entry (L : List (Nat × F)) (j : Nat) : F := ((L.find? fun q => decide (q.1 = j)).map Prod.snd).getD 0

/-- The answers that come from stored entries. -/
def shown (N : Nat) (s : Nat → Nat → List (Nat × F)) : Ask → List F
  | .element i j v => [entry (s v i) j]
  | .row i v => (List.range N).map fun j => entry (s v i) j
  | .diagonal v => (List.range N).map fun i => entry (s v i) i
  | .dense .rowMajor v => (List.range (N * N)).map fun k => entry (s v (k / N)) (k % N)
  | .dense .colMajor v => (List.range (N * N)).map fun k => entry (s v (k % N)) (k / N)
  | .trace _ | .sumSquares _ => []

/-- The answers to the questions of a program, from stored entries. -/
def shownAll (N : Nat) : List (Stmt F) → (Nat → Nat → List (Nat × F)) → List (List F)
  | [], _ => []
  | .call c :: cs, s => shownAll N cs (upd s c.target (stored N s c))
  | .ask q :: cs, s => shown N s q :: shownAll N cs s

end Bml.Spec

namespace Bml.Props

open History

section Rows

variable {F : Type} [Zero F] [One F] [Add F] [Mul F]

omit [One F] [Add F] [Mul F] in
theorem entry_eq (L : List (Nat × F)) (j : Nat) : Spec.entry L j = SRow.look L j := by
  unfold Spec.entry SRow.look
  cases L.find? fun q => decide (q.1 = j) <;> rfl

theorem product_entry {N : Nat} {α : List (Nat × F)} {β : Nat → List (Nat × F)} (big : F → Bool)
    (hα : ∀ p ∈ α, p.1 < N) (hβ : ∀ k, k < N → ∀ p ∈ β k, p.1 < N) (i j : Nat) :
    SRow.look (Spec.productRow big α β i) j =
      let x := Spec.summed (Spec.inColumn j (Spec.terms α β))
      if i = j ∨ big x = true then x else 0 := by
  unfold Spec.productRow Spec.fullProduct
  have := SRow.look_filter (SRow.good_collect (Ell.terms_lt hα hβ)).1
    (fun c x => decide (c = i) || big x) j
  rw [this, SRow.look_collect]
  by_cases h : i = j
  · simp [h]
  · simp [h, Ne.symm h]

theorem sum_entry [DecidableEq F] {N : Nat} {α β : List (Nat × F)} (big : F → Bool)
    (x y : F) (hα : ∀ p ∈ α, p.1 < N) (hβ : ∀ p ∈ β, p.1 < N) (j : Nat) :
    SRow.look (Spec.sumRow big x y α β) j =
      Spec.keep big (Spec.summed (Spec.inColumn j (Spec.sumTerms x y α β))) := by
  unfold Spec.sumRow
  have := SRow.look_filter (SRow.good_collect (Ell.sumTerms_lt x y hα hβ)).1
    (fun _ x => big x) j
  rw [this, SRow.look_collect]
  rfl

/-! ## Single calls -/

/-- **C82**, product: element `(i, j)` of `A B` is the sum, from left to right in the stored order
of row `i` of `A`, of the products of stored entries: for every schedule of the rows on the threads
and whatever the target held before. -/
theorem C82_product {N : Nat} {A B C : Ell F} {a b c : Spec.Mat F} (hA : A.Represents N a)
    (hB : B.Represents N b) (hC : C.Represents N c) (big : F → Bool) {sc : Sched}
    (hsc : IsSched 0 N sc)
    (hfit : ∀ i, i < N → (Spec.fullProduct (A.row i) B.row).length ≤ C.M) :
    ∃ X, Ell.multAB A B C big sc = .ok X ∧ X.Represents N (fun i j =>
      let x := Spec.summed (Spec.inColumn j (Spec.terms (A.row i) B.row))
      if i = j ∨ big x = true then x else 0) ∧
      ∀ i, i < N → X.row i = Spec.productRow big (A.row i) B.row i := by
  obtain ⟨sA, -⟩ := hA.stores
  obtain ⟨sB, -⟩ := hB.stores
  obtain ⟨sC, -⟩ := hC.stores
  have h := Ell.wp_multAB_list sA sB sC big hsc
  rcases hm : Ell.multAB A B C big sc with X | _ | _
  · rw [hm] at h
    refine ⟨X, rfl, ?_, h.2.row⟩
    have hr := h.2.represents
    refine ⟨hr.wf, hr.dim, fun i j hi hj => ?_⟩
    rw [hr.get i j hi hj]
    exact congrArg Res.ok (product_entry big (sA.good i hi).2 (fun k hk => (sB.good k hk).2) i j)
  · rw [hm] at h
    obtain ⟨i, hi, hn⟩ := h
    exact absurd (hfit i hi) hn
  · rw [hm] at h
    exact absurd h (by simp [Res.wp])

/-- **C82**: whether a product stops for want of room does not depend on the schedule. -/
theorem C82_product_stops {N : Nat} {A B C : Ell F} {a b c : Spec.Mat F} (hA : A.Represents N a)
    (hB : B.Represents N b) (hC : C.Represents N c) (big : F → Bool) {sc : Sched}
    (hsc : IsSched 0 N sc) :
    Ell.multAB A B C big sc = .error ↔
      ∃ i, i < N ∧ C.M < (Spec.fullProduct (A.row i) B.row).length := by
  obtain ⟨sA, -⟩ := hA.stores
  obtain ⟨sB, -⟩ := hB.stores
  obtain ⟨sC, -⟩ := hC.stores
  have h := Ell.wp_multAB_list sA sB sC big hsc
  constructor
  · intro e
    rw [e] at h
    obtain ⟨i, hi, hn⟩ := h
    exact ⟨i, hi, by omega⟩
  · rintro ⟨i, hi, hl⟩
    rcases hm : Ell.multAB A B C big sc with X | _ | _
    · rw [hm] at h
      have := h.1 i hi
      omega
    · rfl
    · rw [hm] at h
      exact absurd h (by simp [Res.wp])

/-- **C82**, sum: element `(i, j)` of `α A + β B` is `(0 + α a) + β b`, with the terms whose
coefficient is zero and those not stored left out; elements below the threshold are dropped. -/
theorem C82_add [DecidableEq F] {N : Nat} {A B : Ell F} {a b : Spec.Mat F}
    (hA : A.Represents N a) (hB : B.Represents N b) (α β : F) (big : F → Bool) {sc : Sched}
    (hsc : IsSched 0 N sc)
    (hfit : ∀ i, i < N → (Spec.sumRow big α β (A.row i) (B.row i)).length ≤ A.M) :
    ∃ X, Ell.add A B α β big sc = .ok X ∧ X.Represents N (fun i j => Spec.keep big
      (Spec.summed (Spec.inColumn j (Spec.sumTerms α β (A.row i) (B.row i))))) ∧
      ∀ i, i < N → X.row i = Spec.sumRow big α β (A.row i) (B.row i) := by
  obtain ⟨sA, -⟩ := hA.stores
  obtain ⟨sB, -⟩ := hB.stores
  obtain ⟨X, e, h⟩ := Res.wp_exists (Ell.wp_add_list (E := False) sA sB α β big hsc hfit)
  refine ⟨X, e, ?_, h.row⟩
  have hr := h.represents
  refine ⟨hr.wf, hr.dim, fun i j hi hj => ?_⟩
  rw [hr.get i j hi hj]
  exact congrArg Res.ok (sum_entry big α β (sA.good i hi).2 (sB.good i hi).2 j)

end Rows

/-! ## Programs -/

variable {F : Type} [Zero F] [One F] [Add F] [Mul F] [Neg F] [Sub F] [DecidableEq F]

theorem stored_step {N M : Nat} (hM : 0 < M) (c : Cmd F) (ω : Env F) (S : Nat → Ell F)
    (s : Nat → Nat → List (Nat × F)) (h : ∀ v, (S v).Stores N M (s v)) (hl : c.Legal N)
    (hv : ω.Valid N) (hr : Spec.Room N M s c) :
    (ellValue N M ω S c).wp False (fun A => A.Stores N M (Spec.stored N s c)) := by
  cases c with
  | zero v => exact Ell.wp_newZero_list N hM
  | identity v => exact Ell.wp_identity_list hM hv.rows
  | set i j x v => exact Ell.wp_setElement_list (h v) hl.1 hl.2 x hr.1 hr.2
  | setRow t i row v => exact Ell.wp_setRow_list (h v) hl.1 hl.2 t hr
  | setDiagonal t d v => exact Ell.wp_setDiagonal_list (h v) hl t hr
  | copyNew v w => exact Ell.wp_copyNew_list (h v) hv.rows _ _
  | copy v w => exact Ell.wp_bmlCopy_list (h v) (h w) hM hv.rows
  | scaleInplace c v => exact Ell.wp_scaleInplace_list (h v) c
  | scale c v w =>
    simp only [ellValue]
    split
    · exact Ell.wp_scaleInplace_list (h v) c
    · exact Ell.wp_scale_list (h v) (h w) hM c hv.rows
  | add t α β w v => exact Ell.wp_add_list (h v) (h w) α β t hv.rows hr
  | addIdentity t β v => exact Ell.wp_addIdentity_list (h v) β t hv.rows hr
  | scaleAddIdentity t α β v => exact Ell.wp_scaleAddIdentity_list (h v) α β t hv.rows hr
  | threshold t v => exact Ell.wp_threshold_list (h v) t hv.rows
  | multiply t α β v w u =>
    simp only [ellValue]
    split
    · next he =>
      subst he
      have hp : ∀ i, i < N → (Spec.productRow t (s v i) (s v) i).length ≤ M := fun i hi =>
        (List.length_filter_le _ _).trans (hr i hi).1
      refine Res.wp_mono (Ell.wp_multiplySelf_list (h v) (h u) α β t hv.rows hv.rows' _ _ hp
        fun _ i hi => (hr i hi).2) ?_
      intro X hX
      refine hX.congr fun i _ => ?_
      simp only [Spec.stored, true_and]
    · next he =>
      refine Res.wp_mono' (Ell.wp_multiply_list (h v) (h w) (h u) α β t hv.rows hv.rows' _ _
        fun i hi => (hr i hi).2) ?_ ?_
      · rintro ⟨i, hi, hn⟩
        exact hn (hr i hi).1
      · rintro X ⟨-, hX⟩
        refine hX.congr fun i _ => ?_
        simp only [Spec.stored, he, false_and, if_false]
  | square t v w =>
    simp only [ellValue]
    rw [Res.wp_bind]
    refine Res.wp_mono (Ell.wp_multX2_list (h v) (h w) t hv.rows hr) ?_
    intro X hX
    exact hX
  | transpose v => exact absurd hr id
  | transposeNew v w => exact absurd hr id

theorem stored_ask {N M : Nat} (q : Ask) (ω : Env F) (S : Nat → Ell F)
    (s : Nat → Nat → List (Nat × F)) (h : ∀ v, (S v).Stores N M (s v)) (hl : q.Legal N)
    (hv : ω.Valid N) (hq : ∀ v, q ≠ .trace v ∧ q ≠ .sumSquares v) :
    ellAsk ω S q = .ok (Spec.shown N s q) := by
  have list : ∀ {a : Arr F} {n : Nat} {f : Nat → F}, a.size = n → (∀ k, k < n → a.get k = f k) →
      elems a = (List.range n).map f := by
    intro a n f hs hf
    unfold elems
    rw [hs]
    exact List.map_congr_left fun k hk => hf k (List.mem_range.1 hk)
  cases q with
  | element i j v =>
    simp only [ellAsk]
    rw [(h v).represents.get i j hl.1 hl.2, Res.bind_ok]
    simp only [Spec.shown, entry_eq]
    rfl
  | row i v =>
    obtain ⟨r, e, h1, h2⟩ := Res.wp_exists (Ell.wp_getRow_list (E := False) (h v) hl)
    simp only [ellAsk]
    rw [e, Res.bind_ok, list h1 h2]
    simp only [Spec.shown, entry_eq]
    rfl
  | diagonal v =>
    obtain ⟨r, e, h1, h2⟩ := Res.wp_exists (Ell.wp_getDiagonal_list (E := False) (h v))
    simp only [ellAsk]
    rw [e, Res.bind_ok, list h1 h2]
    simp only [Spec.shown, entry_eq]
    rfl
  | trace v => exact absurd rfl (hq v).1
  | sumSquares v => exact absurd rfl (hq v).2
  | dense o v =>
    obtain ⟨D, e, h1, h2⟩ := Res.wp_exists (Ell.wp_export_list (E := False) (h v) o hv.rows)
    simp only [ellAsk]
    rw [e, Res.bind_ok]
    have key : ∀ k, k < N * N → k / N < N ∧ k % N < N ∧ (k / N) * N + k % N = k := fun k hk =>
      ⟨Nat.div_lt_of_lt_mul hk, Nat.mod_lt _ (Nat.pos_of_ne_zero fun e => by subst e; omega),
        Nat.div_add_mod' k N⟩
    cases o with
    | rowMajor =>
      simp only [Spec.shown, entry_eq]
      refine congrArg Res.ok (list h1 fun k hk => ?_)
      obtain ⟨k1, k2, k3⟩ := key k hk
      have := h2 _ _ k1 k2
      rwa [show Order.addr .rowMajor (k / N) (k % N) N = k from k3] at this
    | colMajor =>
      simp only [Spec.shown, entry_eq]
      refine congrArg Res.ok (list h1 fun k hk => ?_)
      obtain ⟨k1, k2, k3⟩ := key k hk
      have := h2 _ _ k2 k1
      rwa [show Order.addr .colMajor (k % N) (k / N) N = k by
        simp only [Order.addr, COLMAJOR]; omega] at this

/-- **C82**, programs: every run of a program, on any threads and in any schedule, with any contents
of fresh memory, gives exactly the answers of the list specification: the same operations in the same
order. -/
theorem C82_program {N M : Nat} (hM : 0 < M) : ∀ {cs : List (Stmt F)} {p : List (Stmt F × Env F)},
    RunOf N cs p → (∀ c ∈ cs, Stmt.Legal N c) → ∀ {S : Nat → Ell F}
    {s : Nat → Nat → List (Nat × F)}, (∀ v, (S v).Stores N M (s v)) → Spec.RoomAll N M cs s →
    outputs (ellValue N M) ellAsk p S = .ok (Spec.shownAll N cs s) := by
  intro cs p
  induction p generalizing cs with
  | nil =>
    rintro ⟨rfl, -⟩ _ S s _ _
    rfl
  | cons c p ih =>
    intro hr hl S s h ho
    obtain ⟨c, ω⟩ := c
    obtain ⟨rfl, hv⟩ := hr
    have hω := hv _ List.mem_cons_self
    have hrest : RunOf N (p.map Prod.fst) p := ⟨rfl, fun c hc => hv c (List.mem_cons_of_mem _ hc)⟩
    have hl' : ∀ c ∈ p.map Prod.fst, Stmt.Legal N c := fun c hc => hl c (List.mem_cons_of_mem _ hc)
    have hl0 := hl _ List.mem_cons_self
    cases c with
    | call c =>
      obtain ⟨h1, h2⟩ := ho
      obtain ⟨A, e, hA⟩ := Res.wp_exists (stored_step hM c ω S s h hl0 hω h1)
      have := ih hrest hl' (S := upd S c.target A)
        (s := upd s c.target (Spec.stored N s c)) (fun v => by
          by_cases hv : v = c.target
          · subst hv; rw [upd_same, upd_same]; exact hA
          · rw [upd_ne _ _ hv, upd_ne _ _ hv]; exact h v) h2
      show (ellValue N M ω S c >>= fun A => outputs _ ellAsk p (upd S c.target A)) = _
      rw [e, Res.bind_ok, this]
      rfl
    | ask q =>
      have hq : (∀ v, q ≠ .trace v ∧ q ≠ .sumSquares v) ∧ Spec.RoomAll N M (p.map Prod.fst) s := by
        cases q <;> first
          | exact absurd ho id
          | exact ⟨fun v => ⟨fun h => (by cases h), fun h => (by cases h)⟩, ho⟩
      have h1 := stored_ask q ω S s h hl0 hω hq.1
      have h2 := ih hrest hl' h hq.2
      show (ellAsk ω S q >>= fun x => outputs _ ellAsk p S >>= fun xs => pure (x :: xs)) = _
      rw [h1, Res.bind_ok, h2]
      rfl

/-! ## Rows as wide as the matrix -/

/-- Calls whose results are reproducible in wide rows: not `bml_set_element`, which may store a
column twice, and not the transpositions. -/
def Repeats : Stmt F → Prop
  | .call (.set _ _ _ _) | .call (.transpose _) | .call (.transposeNew _ _) => False
  | .ask (.trace _) | .ask (.sumSquares _) => False
  | _ => True

omit [Zero F] [One F] [Add F] [Mul F] [Neg F] [Sub F] [DecidableEq F] in
theorem good_length {N : Nat} {L : SRow F} (h : SRow.Good N L) : L.length ≤ N := by
  have h2 : (L.map Prod.fst).toFinset ⊆ Finset.range N := by
    intro a ha
    simp only [List.mem_toFinset, List.mem_map] at ha
    obtain ⟨q, hq, rfl⟩ := ha
    simpa using h.2 q hq
  have h3 := Finset.card_le_card h2
  rw [List.toFinset_card_of_nodup h.1] at h3
  simpa using h3

omit [One F] [Mul F] [Neg F] [Sub F] in
theorem good_full {N i : Nat} {L : SRow F} (h : SRow.Good N L) (hi : i < N) (β : F) :
    SRow.Good N (Spec.fullIdentity β i L) := by
  unfold Spec.fullIdentity
  split
  · exact h
  · split
    · exact Spec.good_change h _ _
    · next hc => exact SRow.Good.append_singleton h hi hc

omit [Neg F] [Sub F] in
/-- In rows as wide as the matrix there is room, and the result has proper rows again. -/
theorem room_wide {N M : Nat} (hNM : N ≤ M) {s : Nat → Nat → List (Nat × F)}
    (hs : ∀ v i, i < N → SRow.Good N (s v i)) {c : Cmd F} (hc : Repeats (.call c))
    (hl : c.Legal N) :
    Spec.Room N M s c ∧ ∀ i, i < N → SRow.Good N (Spec.stored N s c i) := by
  have fits : ∀ {L : SRow F}, SRow.Good N L → L.length ≤ M := fun h => (good_length h).trans hNM
  have lt : ∀ v i, i < N → ∀ p ∈ s v i, p.1 < N := fun v i hi => (hs v i hi).2
  have full : ∀ v w i, i < N → SRow.Good N (Spec.fullProduct (s v i) (s w)) := fun v w i hi =>
    SRow.good_collect (Ell.terms_lt (lt v i hi) (lt w))
  have prod : ∀ t v w i, i < N → SRow.Good N (Spec.productRow t (s v i) (s w) i) :=
    fun t v w i hi => Ell.good_product t i (lt v i hi) (lt w)
  have sc : ∀ c v i, i < N → SRow.Good N (Spec.scaled c (s v i)) := fun c v i hi =>
    (hs v i hi).map_snd _
  cases c with
  | zero v => exact ⟨trivial, fun i hi => ⟨by simp [Spec.stored], by simp [Spec.stored]⟩⟩
  | identity v =>
    exact ⟨trivial, fun i hi => ⟨by simp [Spec.stored], by simpa [Spec.stored] using hi⟩⟩
  | set i j x v => exact absurd hc id
  | setRow t i row v =>
    refine ⟨fits (Ell.good_rowOf t N row.get), fun k hk => ?_⟩
    simp only [Spec.stored]
    by_cases he : k = i
    · subst he; rw [upd_same]; exact Ell.good_rowOf t N row.get
    · rw [upd_ne _ _ he]; exact hs v k hk
  | setDiagonal t d v =>
    exact ⟨fun i hi => fits (Ell.good_setDiag (hs v i hi) hi t _),
      fun i hi => Ell.good_setDiag (hs v i hi) hi t _⟩
  | copyNew v w => exact ⟨trivial, hs v⟩
  | copy v w => exact ⟨trivial, hs v⟩
  | scaleInplace c v => exact ⟨trivial, sc c v⟩
  | scale c v w => exact ⟨trivial, sc c v⟩
  | add t α β w v =>
    exact ⟨fun i hi => fits (Ell.good_sum t α β (lt v i hi) (lt w i hi)),
      fun i hi => Ell.good_sum t α β (lt v i hi) (lt w i hi)⟩
  | addIdentity t β v =>
    exact ⟨fun i hi => fits (good_full (hs v i hi) hi β),
      fun i hi => Ell.good_identity (hs v i hi) hi t β⟩
  | scaleAddIdentity t α β v =>
    exact ⟨fun i hi => fits (good_full (sc α v i hi) hi β),
      fun i hi => Ell.good_identity (sc α v i hi) hi t β⟩
  | threshold t v => exact ⟨trivial, fun i hi => (hs v i hi).sublist List.filter_sublist⟩
  | multiply t α β v w u =>
    have g : ∀ i, i < N → SRow.Good N (Spec.sumRow t β α (s u i) (Spec.productRow t (s v i) (s w) i)) :=
      fun i hi => Ell.good_sum t β α (lt u i hi) (prod t v w i hi).2
    refine ⟨fun i hi => ⟨fits (full v w i hi), fits (g i hi)⟩, fun i hi => ?_⟩
    simp only [Spec.stored]
    split
    · exact prod t v v i hi
    · exact g i hi
  | square t v w => exact ⟨fun i hi => fits (prod t v v i hi), fun i hi => prod t v v i hi⟩
  | transpose v => exact absurd hc id
  | transposeNew v w => exact absurd hc id

omit [Neg F] [Sub F] in
theorem roomAll_wide {N M : Nat} (hNM : N ≤ M) : ∀ {cs : List (Stmt F)},
    (∀ c ∈ cs, Repeats c) → (∀ c ∈ cs, Stmt.Legal N c) → ∀ {s : Nat → Nat → List (Nat × F)},
    (∀ v i, i < N → SRow.Good N (s v i)) → Spec.RoomAll N M cs s := by
  intro cs
  induction cs with
  | nil => intro _ _ s _; trivial
  | cons c cs ih =>
    intro hc hl s hs
    have hc' := fun c h => hc c (List.mem_cons_of_mem _ h)
    have hl' := fun c h => hl c (List.mem_cons_of_mem _ h)
    cases c with
    | call c =>
      obtain ⟨h1, h2⟩ := room_wide hNM hs (hc _ List.mem_cons_self) (hl _ List.mem_cons_self)
      refine ⟨h1, ih hc' hl' fun v i hi => ?_⟩
      by_cases he : v = c.target
      · subst he; rw [upd_same]; exact h2 i hi
      · rw [upd_ne _ _ he]; exact hs v i hi
    | ask q =>
      have h0 := hc _ List.mem_cons_self
      have := ih hc' hl' hs
      cases q <;> first
        | exact absurd h0 id
        | exact this

/-- **C82**, reproducibility: two runs of the same program on matrices with the same stored entries
give the same answers to the last bit, whatever the numbers of threads, the schedules, the contents
of fresh memory and the unused parts of the arrays.  Nothing is assumed about the arithmetic. -/
theorem C82_reproducible {N M : Nat} (hM : 0 < M) (hNM : N ≤ M) {cs : List (Stmt F)}
    (hc : ∀ c ∈ cs, Repeats c) (hl : ∀ c ∈ cs, Stmt.Legal N c) {p p' : List (Stmt F × Env F)}
    (hp : RunOf N cs p) (hp' : RunOf N cs p') {S S' : Nat → Ell F} {s s' : Nat → Spec.Mat F}
    (hS : ∀ v, (S v).M = M ∧ (S v).Represents N (s v))
    (hS' : ∀ v, (S' v).M = M ∧ (S' v).Represents N (s' v))
    (hsame : ∀ v i, i < N → (S v).row i = (S' v).row i) :
    ∃ out, outputs (ellValue N M) ellAsk p S = .ok out ∧
      outputs (ellValue N M) ellAsk p' S' = .ok out := by
  have h1 : ∀ v, (S v).Stores N M ((S v).row) := fun v => by
    have := (hS v).2.stores.1; rwa [(hS v).1] at this
  have h2 : ∀ v, (S' v).Stores N M ((S v).row) := fun v => by
    have := (hS' v).2.stores.1
    rw [(hS' v).1] at this
    exact this.congr fun i hi => (hsame v i hi).symm
  have hr := roomAll_wide hNM hc hl (s := fun v => (S v).row) fun v => (h1 v).good
  exact ⟨_, C82_program hM hp hl h1 hr, C82_program hM hp' hl h2 hr⟩

/-! ## Examples -/

/-- Zeros are dropped. -/
def shBig (x : Short) : Bool := decide (x.val ≠ 0)

/-- An environment with given schedules; memory full of `x`. -/
def shEnv (N : Nat) (rows : Sched) (back : Bool) (x : Short) : Env Short where
  rows := rows
  rows' := rows
  rows'' := rows
  elems := seqSched (0 * N) (N * N)
  upper := seqSched 0 (N - 1)
  ellSlots := fun A => if back then A.slots.reverse else A.slots
  csrSlots := fun A => A.slots
  vals := fun _ => x
  ints := fun _ => 5
  vals2 := fun _ _ => x
  ints2 := fun _ _ => 5
  csrRows := fun _ => ⟨0, ⟨1, fun _ => x⟩, ⟨1, fun _ => 5⟩, 1⟩
  table := fun _ => ⟨none, 7, 7⟩

theorem shEnv_valid {N : Nat} {rows : Sched} (h : IsSched 0 N rows) (back : Bool) (x : Short) :
    (shEnv N rows back x).Valid N := by
  refine ⟨h, h, h, isSched_seq _ _, isSched_seq _ _, fun A => ?_, fun A => List.Perm.refl _⟩
  show (if back then A.slots.reverse else A.slots).Perm _
  split
  · exact List.reverse_perm _
  · exact List.Perm.refl _

/-- Rows `8 . .`, `1 . .`, `1 . .` and rows `1 . .`, `1 . .`, `1 . .`. -/
def shMat (x : Int) : Ell Short :=
  ⟨3, 3, ⟨9, fun k => if k = 0 then ⟨x⟩ else ⟨1⟩⟩, ⟨9, fun _ => 0⟩, ⟨3, fun _ => 1⟩⟩

theorem shMat_represents (x : Int) : (shMat x).Represents 3
    (fun i j => if j = 0 then (if i = 0 then ⟨x⟩ else ⟨1⟩) else 0) := by
  have h : (shMat x).Stores 3 3 (fun i => [(0, if i = 0 then ⟨x⟩ else ⟨1⟩)]) := by
    refine ⟨⟨rfl, rfl, rfl⟩, rfl, rfl, fun i hi => ?_, fun _ _ => by simp, fun i hi => ⟨by simp, by simp⟩⟩
    show [(0, if i * 3 + 0 = 0 then _ else _)] = _
    by_cases h : i = 0
    · subst h; rfl
    · rw [if_neg h, if_neg (by omega)]
  have hr := h.represents
  refine ⟨hr.wf, hr.dim, fun i j hi hj => ?_⟩
  rw [hr.get i j hi hj, SRow.look_cons]
  by_cases h : j = 0
  · subst h; rfl
  · rw [if_neg h, if_neg (Ne.symm h)]; rfl

/-- Sets a row, multiplies, adds, squares and asks. -/
def shStmts : List (Stmt Short) :=
  [.call (.setRow shBig 1 ⟨3, fun j => ⟨2 * j + 3⟩⟩ 0), .call (.multiply shBig ⟨3⟩ ⟨1⟩ 0 1 2),
    .call (.add shBig ⟨3⟩ ⟨-1⟩ 2 1), .call (.square shBig 1 3), .call (.addIdentity shBig ⟨9⟩ 3),
    .ask (.element 1 1 3), .ask (.row 0 3), .ask (.dense .colMajor 2)]

/-- Two threads backwards and one thread forwards, with different junk in memory, get the same
answers in short arithmetic. -/
example : ∃ out,
    outputs (ellValue 3 3) ellAsk
      (shStmts.map fun c => (c, shEnv 3 [(1, 2), (0, 1), (1, 0)] true ⟨5⟩)) (fun _ => shMat 8)
      = .ok out ∧
    outputs (ellValue 3 3) ellAsk
      (shStmts.map fun c => (c, shEnv 3 [(0, 0), (0, 1), (0, 2)] false ⟨7⟩)) (fun _ => shMat 8)
      = .ok out := by
  have hrun : ∀ ω : Env Short, ω.Valid 3 → RunOf 3 shStmts (shStmts.map fun c => (c, ω)) := by
    intro ω hω
    refine ⟨by rw [List.map_map]; exact List.map_id _, ?_⟩
    rintro c hc
    obtain ⟨d, -, rfl⟩ := List.mem_map.1 hc
    exact hω
  refine C82_reproducible (by decide) (by decide) (cs := shStmts) ?_ ?_
    (hrun _ (shEnv_valid (by unfold IsSched; decide) _ _)) (hrun _ (shEnv_valid (by unfold IsSched; decide) _ _))
    (fun _ => ⟨rfl, shMat_represents 8⟩) (fun _ => ⟨rfl, shMat_represents 8⟩) fun _ _ _ => rfl
  · intro c hc
    simp only [shStmts, List.mem_cons, List.not_mem_nil, or_false] at hc
    rcases hc with rfl | rfl | rfl | rfl | rfl | rfl | rfl | rfl <;> trivial
  · intro c hc
    simp only [shStmts, List.mem_cons, List.not_mem_nil, or_false] at hc
    rcases hc with rfl | rfl | rfl | rfl | rfl | rfl | rfl | rfl <;>
      simp [Stmt.Legal, Cmd.Legal, Ask.Legal]

/-- The answers do depend on the order of the operations: they are not those of exact arithmetic. -/
example : Spec.summed [(⟨8⟩ : Short), ⟨1⟩, ⟨1⟩] = ⟨8⟩ ∧ Spec.summed [(⟨1⟩ : Short), ⟨1⟩, ⟨8⟩] = ⟨10⟩ := by
  decide +kernel

/-- Single calls: the hypotheses hold for these matrices. -/
example : ∃ X, Ell.multAB (shMat 9) (shMat 5) (shMat 1) shBig [(1, 2), (0, 1), (1, 0)] = .ok X ∧
    X.row 0 = [(0, ⟨40⟩)] := by
  obtain ⟨X, e, -, hr⟩ := C82_product (shMat_represents 9) (shMat_represents 5)
    (shMat_represents 1) shBig (sc := [(1, 2), (0, 1), (1, 0)]) (by unfold IsSched; decide)
    (by decide)
  exact ⟨X, e, (hr 0 (by decide)).trans (by decide +kernel)⟩

example : Ell.multAB (shMat 9) (shMat 5) ⟨3, 0, ⟨0, fun _ => ⟨1⟩⟩, ⟨0, fun _ => 0⟩, ⟨3, fun _ => 0⟩⟩ shBig
    [(1, 2), (0, 1), (1, 0)] = .error := by
  have hC : Ell.Stores (⟨3, 0, ⟨0, fun _ => ⟨1⟩⟩, ⟨0, fun _ => 0⟩, ⟨3, fun _ => 0⟩⟩ : Ell Short) 3 0
      (fun _ => []) :=
    ⟨⟨rfl, rfl, rfl⟩, rfl, rfl, fun _ _ => rfl, fun _ _ => by simp, fun _ _ => ⟨by simp, by simp⟩⟩
  exact (C82_product_stops (shMat_represents 9) (shMat_represents 5) hC.represents shBig
    (by unfold IsSched; decide)).2 ⟨0, by decide, by decide⟩

example : ∃ X, Ell.add (shMat 9) (shMat 5) ⟨3⟩ ⟨-1⟩ shBig [(1, 2), (0, 1), (1, 0)] = .ok X ∧
    X.row 0 = [(0, ⟨16⟩)] := by
  obtain ⟨X, e, -, hr⟩ := C82_add (shMat_represents 9) (shMat_represents 5) ⟨3⟩ ⟨-1⟩ shBig
    (sc := [(1, 2), (0, 1), (1, 0)]) (by unfold IsSched; decide) (by decide +kernel)
  exact ⟨X, e, (hr 0 (by decide)).trans (by decide +kernel)⟩

/-! ## What is not reproducible -/

/-- The diagonal matrix `8 1 1`. -/
def shDiag : Ell Short :=
  ⟨3, 1, ⟨3, fun k => if k = 0 then ⟨8⟩ else ⟨1⟩⟩, ⟨3, fun k => k⟩, ⟨3, fun _ => 1⟩⟩

/-- **C82**, limit: `bml_trace` and `bml_sum_squares` combine the rows by a reduction; the result
depends on the schedule. -/
theorem C82_trace_varies : ∃ sc sc' : Sched, IsSched 0 3 sc ∧ IsSched 0 3 sc' ∧
    Ell.trace shDiag sc = .ok ⟨8⟩ ∧ Ell.trace shDiag sc' = .ok ⟨10⟩ :=
  ⟨[(0, 0), (0, 1), (0, 2)], [(0, 2), (0, 1), (0, 0)], by unfold IsSched; decide,
    by unfold IsSched; decide, by decide +kernel, by decide +kernel⟩

/-- **C82**, limit: `bml_transpose_new` stores the entries of a row in the order in which the threads
get its lock.  A later product adds in that order, so its last bits vary from run to run. -/
theorem C82_transpose_new_varies : ∃ ω ω' : Env Short, ω.Valid 3 ∧ ω'.Valid 3 ∧
    outputs (ellValue 3 3) ellAsk
      [(.call (.transposeNew 0 2), ω), (.call (.multiply shBig 1 0 2 1 3), ω),
        (.ask (.element 0 0 3), ω)] (fun v => shMat (if v = 0 then 8 else 1)) = .ok [[⟨8⟩]] ∧
    outputs (ellValue 3 3) ellAsk
      [(.call (.transposeNew 0 2), ω'), (.call (.multiply shBig 1 0 2 1 3), ω'),
        (.ask (.element 0 0 3), ω')] (fun v => shMat (if v = 0 then 8 else 1)) = .ok [[⟨10⟩]] :=
  ⟨shEnv 3 [(0, 0), (0, 1), (0, 2)] false ⟨0⟩, shEnv 3 [(0, 0), (0, 1), (0, 2)] true ⟨0⟩,
    shEnv_valid (by unfold IsSched; decide) _ _, shEnv_valid (by unfold IsSched; decide) _ _, by decide +kernel, by decide +kernel⟩

end Bml.Props
